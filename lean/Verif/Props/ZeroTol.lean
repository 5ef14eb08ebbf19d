import Verif.Props.Finite
import Verif.Props.DP5Hang
/-!
# Tolerances that are zero (C67)
-/

namespace Cyphus
open X
set_option autoImplicit false
set_option linter.unusedSectionVars false

noncomputable section
variable {n : ℕ} {P : Type}

namespace Radau

/-- If the Newton iteration never succeeds with the initial scale then nothing is ever accepted. -/
theorem never_accepts {b : Builder X n P} {s0 s : St X n P} (hb : b.build alg = .ok s0)
    (hn : ∀ s s' : St X n P, Pivots s → s.opts = adjustOpts b.opts → s.cache.scal = s0.cache.scal → newton s ≠ .ok (s', true))
    (hs : (∃ k, SomeSteps alg none k s0 s) ∨ IntegrateReturns alg none s0 s) :
    s.sol.ts = [b.t] ∧ s.sol.us = [b.u] ∧ s.sol.retcode ≠ .Success := by
  have bf := build_fields hb
  have H : (Pivots s ∧ s.opts = adjustOpts b.opts ∧ s.cache.scal = s0.cache.scal) ∧
      s.sol.ts = [b.t] ∧ s.sol.us = [b.u] ∧ s.sol.retcode ≠ .Success := by
    refine run_induct hb (I := fun s => (Pivots s ∧ s.opts = adjustOpts b.opts ∧ s.cache.scal = s0.cache.scal) ∧
      s.sol.ts = [b.t] ∧ s.sol.us = [b.u] ∧ s.sol.retcode ≠ .Success)
      ⟨⟨build_pivots hb, bf.2.2.2.2.2.2.2.2.2.2.1, rfl⟩, bf.1, bf.2.1, by rw [bf.2.2.1]; nofun⟩ ?_ hs
    rintro s s' fuel hrd ⟨⟨h1, h2, h3⟩, h5, h6, -⟩ hst
    obtain ⟨sf, hc⟩ := step_cases hrd hst
    obtain ⟨s1, s2, p1, p1', p2, p3, p7, p8, p4, p5, p6⟩ | ⟨p0, p1, p2⟩ := step_newton hrd h1 hst
    · exact absurd p4 (hn s1 s2 p1 (p3.trans h2) (p1'.trans h3))
    · refine ⟨⟨h1.step hst, sf.opts.trans h2, p0.trans h3⟩, ?_⟩
      rcases hc with hc | hc
      · have := hc.us
        rw [p2] at this
        simp at this
      · refine ⟨hc.frame.ts.trans h5, hc.frame.us.trans h6, ?_⟩
        rcases hc.retcode with h | h | h <;> rw [h] <;> nofun
  exact H.2

theorem build_scal {b : Builder X n P} {s0 : St X n P} (hb : b.build alg = .ok s0) (i : _root_.Fin n) :
    s0.cache.scal i = (adjustOpts b.opts).abstol + (adjustOpts b.opts).reltol * Fl.abs (b.u i) := by
  rw [← Res.ok.inj hb]

theorem newtonNorm_not_fin {s : St X n P} {i : _root_.Fin n} (h : s.cache.scal i = fin 0) : ¬ IsFin (newtonNorm s) := by
  intro hf
  have h1 := IsFin.sumLoop hf.of_sqrt.of_div i
  have h2 := ((IsFin.add_iff.1 (IsFin.add_iff.1 h1).1).1).of_sq
  rw [h] at h2
  obtain ⟨y, hy⟩ := h2
  generalize s.cache.z1 i = z at hy
  cases z with
  | fin a =>
    rw [div_fin_zero] at hy
    unfold infSign at hy
    split at hy
    · cases hy
    · split at hy <;> cases hy
  | nan => cases hy
  | pinf =>
    change (if (0:ℝ) < 0 then ninf else pinf) = _ at hy
    rw [if_neg (lt_irrefl _)] at hy; cases hy
  | ninf =>
    change (if (0:ℝ) < 0 then pinf else ninf) = _ at hy
    rw [if_neg (lt_irrefl _)] at hy; cases hy

end Radau

/-- **C67** With `reltol = 0` — whatever `abstol` is — `Radau5` accepts no step, on no problem. -/
theorem C67_zero_reltol_radau (hn : n ≠ 0) {b : Builder X n P} {s0 s : Radau.St X n P} (hr : b.opts.reltol = fin 0)
    (hb : b.build Radau.alg = .ok s0)
    (hs : (∃ k, SomeSteps Radau.alg none k s0 s) ∨ IntegrateReturns Radau.alg none s0 s) :
    s.sol.ts = [b.t] ∧ s.sol.us = [b.u] ∧ s.sol.retcode ≠ .Success := by
  refine Radau.never_accepts hb (fun s s' _ _ h => Radau.newton_nan ⟨⟨0, by omega⟩, ?_⟩) hs
  rw [h, Radau.build_scal hb]
  have e1 : Fl.powf b.opts.reltol (2.0 / 3.0) = fin 0 := by
    rw [hr, show (2.0 : X) = fin 2.0 from rfl, show (3.0 : X) = fin 3.0 from rfl, div_fin (by norm_num)]
    change powX _ _ = _
    rw [powX_fin, powR, if_neg (by norm_num), if_neg (lt_irrefl _), if_pos rfl, if_pos (by norm_num)]
  have e2 : (Radau.adjustOpts b.opts).abstol = nan := by
    simp only [Radau.adjustOpts]
    rw [e1, hr, show (0.1 : X) = fin 0.1 from rfl, mul_fin, mul_zero]
    have m1 : ∀ y : X, (∀ r, y ≠ fin r) → fin 0 * y = nan := by
      intro y hy
      cases y with
      | fin r => exact absurd rfl (hy r)
      | nan => rfl
      | pinf => change infSign 0 = nan; simp [infSign]
      | ninf => change infSign (-0) = nan; simp [infSign]
    apply m1
    intro r hq
    generalize b.opts.abstol = z at hq
    cases z with
    | fin a =>
      rw [div_fin_zero] at hq
      unfold infSign at hq
      split at hq
      · cases hq
      · split at hq <;> cases hq
    | nan => cases hq
    | pinf =>
      change (if (0:ℝ) < 0 then ninf else pinf) = _ at hq
      rw [if_neg (lt_irrefl _)] at hq; cases hq
    | ninf =>
      change (if (0:ℝ) < 0 then pinf else ninf) = _ at hq
      rw [if_neg (lt_irrefl _)] at hq; cases hq
  rw [e2]; rfl

/-- **C67** With `abstol = 0` and a component of the initial state that is zero `Radau5` accepts no step. -/
theorem C67_zero_abstol_radau {b : Builder X n P} {s0 s : Radau.St X n P} {r x : ℝ} (ha : b.opts.abstol = fin 0)
    (hr : b.opts.reltol = fin r) (h0 : 0 < r) (hx : b.opts.fnewt = fin x) (hu : ∃ i, b.u i = fin 0)
    (hb : b.build Radau.alg = .ok s0)
    (hs : (∃ k, SomeSteps Radau.alg none k s0 s) ∨ IntegrateReturns Radau.alg none s0 s) :
    s.sol.ts = [b.t] ∧ s.sol.us = [b.u] ∧ s.sol.retcode ≠ .Success := by
  obtain ⟨i, hi⟩ := hu
  refine Radau.never_accepts hb (fun s s' hp ho h hnew => ?_) hs
  obtain ⟨-, -, a, h1, h2⟩ := Radau.newton_fin hnew hp (by rw [ho]; exact Radau.fnewt_ne hr h0 hx)
  refine Radau.newtonNorm_not_fin (i := i) ?_ h2
  rw [h1, h, Radau.build_scal hb, hi]
  have e1 : Fl.powf b.opts.reltol (2.0 / 3.0) = fin (r ^ (2.0 / 3.0 : ℝ)) := by
    rw [hr, show (2.0 : X) = fin 2.0 from rfl, show (3.0 : X) = fin 3.0 from rfl, div_fin (by norm_num)]
    change powX _ _ = _
    rw [powX_fin, powR, if_neg (by norm_num), if_pos h0]
  simp only [Radau.adjustOpts]
  rw [e1, ha, hr, div_fin h0.ne', show (0.1 : X) = fin 0.1 from rfl]
  simp

/-- **C67** `DormandPrince5` with `abstol = 0`: if a component is zero and its derivative vanishes whenever it is zero,
`step()` never returns, from no reachable or unreachable state, with or without callback. -/
theorem C67_zero_abstol_dp5 (cb : Option (Callback (DP5.alg : Algorithm X n P))) {s : DP5.St X n P} {r : ℝ}
    (ha : s.opts.abstol = fin 0) (hr : s.opts.reltol = fin r) (i : Fin n) (hu : s.u i = fin 0) (hd : s.cache.du i = fin 0)
    (hf : ∀ buf u t, u i = fin 0 → s.dudt s.params buf u t i = fin 0) (fuel : ℕ) :
    Integ.step DP5.alg cb fuel s = .timeout := by
  refine DP5.step_hangs cb (fun s => s.opts.abstol = fin 0 ∧ s.opts.reltol = fin r ∧ s.u i = fin 0 ∧ s.cache.du i = fin 0 ∧
    ∀ buf u t, u i = fin 0 → s.dudt s.params buf u t i = fin 0) ?_ ?_ ?_ fuel s ⟨ha, hr, hu, hd, hf⟩
  · intro s h
    have f := DP5.Frame.clampLast s
    rw [f.opts, f.u, f.du, f.dudt, f.params]; exact h
  · rintro s ⟨ha, hr, hu, hd, hf⟩
    have L := X.nanLaws
    rw [Bool.eq_false_iff]
    intro hle
    obtain ⟨h, hh⟩ := (DP5.fin_of_err hle).2 (by have := i.isLt; omega)
    have hb : DP5.errOf s = nan := by
      refine L.sqrt (L.div_left _ (sumLoop_nan L _ _ i ?_))
      refine L.mul_left _ ?_
      have k2 : (DP5.compute_stages s).cache.k2 i = fin 0 := hf _ _ _ (by simp [hu, hd, hh])
      have k3 : (DP5.compute_stages s).cache.k3 i = fin 0 := by
        refine hf _ _ _ ?_
        change s.u i + s.dt * (DP5.A31 * s.cache.du i + DP5.A32 * (DP5.compute_stages s).cache.k2 i) = _
        simp [hu, hd, hh, k2]
      have k4 : (DP5.compute_stages s).cache.k4 i = fin 0 := by
        refine hf _ _ _ ?_
        change s.u i + s.dt * (DP5.A41 * s.cache.du i + DP5.A42 * (DP5.compute_stages s).cache.k2 i
          + DP5.A43 * (DP5.compute_stages s).cache.k3 i) = _
        simp [hu, hd, hh, k2, k3]
      have k5 : (DP5.compute_stages s).cache.k5 i = fin 0 := by
        refine hf _ _ _ ?_
        change s.u i + s.dt * (DP5.A51 * s.cache.du i + DP5.A52 * (DP5.compute_stages s).cache.k2 i
          + DP5.A53 * (DP5.compute_stages s).cache.k3 i + DP5.A54 * (DP5.compute_stages s).cache.k4 i) = _
        simp [hu, hd, hh, k2, k3, k4]
      have k6 : (DP5.compute_stages s).cache.k6 i = fin 0 := by
        refine hf _ _ _ ?_
        change s.u i + s.dt * (DP5.A61 * s.cache.du i + DP5.A62 * (DP5.compute_stages s).cache.k2 i
          + DP5.A63 * (DP5.compute_stages s).cache.k3 i + DP5.A64 * (DP5.compute_stages s).cache.k4 i
          + DP5.A65 * (DP5.compute_stages s).cache.k5 i) = _
        simp [hu, hd, hh, k2, k3, k4, k5]
      have un : (DP5.compute_stages s).cache.unew i = fin 0 := by
        change s.u i + s.dt * (DP5.A71 * s.cache.du i + DP5.A73 * (DP5.compute_stages s).cache.k3 i
          + DP5.A74 * (DP5.compute_stages s).cache.k4 i + DP5.A75 * (DP5.compute_stages s).cache.k5 i
          + DP5.A76 * (DP5.compute_stages s).cache.k6 i) = _
        simp [hu, hd, hh, k3, k4, k5, k6]
      have k7 : (DP5.compute_stages s).cache.dunew i = fin 0 := hf _ _ _ un
      have ue : (DP5.compute_stages s).cache.uerr i = fin 0 := by
        change s.dt * (DP5.E1 * s.cache.du i + DP5.E3 * (DP5.compute_stages s).cache.k3 i
          + DP5.E4 * (DP5.compute_stages s).cache.k4 i + DP5.E5 * (DP5.compute_stages s).cache.k5 i
          + DP5.E6 * (DP5.compute_stages s).cache.k6 i + DP5.E7 * (DP5.compute_stages s).cache.dunew i) = _
        simp [hd, hh, k3, k4, k5, k6, k7]
      have eu : (DP5.compute_stages s).u i = fin 0 := hu
      have ea : (DP5.compute_stages s).opts.abstol = fin 0 := ha
      have er : (DP5.compute_stages s).opts.reltol = fin r := hr
      rw [ue, eu, ea, er, un]
      simp [div_fin_zero, infSign]
    rw [hb] at hle
    cases hle
  · intro s h
    have f := DP5.Frame.retry s
    rw [f.opts, f.u, f.du, f.dudt, f.params]; exact h

/-- **C67** In particular `integrate()` and the first `step()` after `build()` do not return. -/
theorem C67_zero_abstol_build_dp5 {b : Builder X n P} {s0 : DP5.St X n P} {r : ℝ} (ha : b.opts.abstol = fin 0)
    (hr : b.opts.reltol = fin r) (i : Fin n) (hu : b.u i = fin 0)
    (hf : ∀ buf u t, u i = fin 0 → b.dudt b.params buf u t i = fin 0) (hb : b.build DP5.alg = .ok s0) (fuel : ℕ) :
    Integ.step DP5.alg none fuel s0 = .timeout ∧ Integ.integrate DP5.alg none fuel s0 = .timeout := by
  have e : s0.opts = b.opts ∧ s0.u = b.u ∧ s0.dudt = b.dudt ∧ s0.params = b.params ∧
      s0.cache.du = b.dudt b.params (fun _ => 0.0) b.u b.t := by
    rw [← Res.ok.inj hb]; exact ⟨rfl, rfl, rfl, rfl, rfl⟩
  obtain ⟨e1, e2, e3, e4, e5⟩ := e
  have h : ∀ fuel, Integ.step DP5.alg none fuel s0 = .timeout :=
    C67_zero_abstol_dp5 none (by rw [e1]; exact ha) (by rw [e1]; exact hr) i (by rw [e2]; exact hu)
      (by rw [e5]; exact hf _ _ _ hu) (by rw [e3, e4]; exact hf)
  refine ⟨h fuel, ?_⟩
  cases fuel with
  | zero => rfl
  | succ f => rw [Integ.integrate, h (f + 1)]; rfl

/-! ### Cases meeting the hypotheses -/

/-- `u' = -u` from `(1, 0)` on `[0, 1]`. -/
def decays (alg : Algorithm X 2 Unit) : Builder X 2 Unit :=
  Builder.default alg (fun _ _ u _ => fun i => -u i) (fun i => if i = 0 then fin 1 else fin 0) (fin 0, fin 1) ()

/-- `Radau5` with `reltol = 0`. -/
example : ∃ s0 s : Radau.St X 2 Unit, ((decays Radau.alg).set (.reltol (fin 0))).build Radau.alg = .ok s0 ∧
    IntegrateReturns Radau.alg none s0 s ∧ s.sol.retcode ≠ .Success := by
  obtain ⟨s0, hb⟩ : ∃ s0, ((decays Radau.alg).set (.reltol (fin 0))).build Radau.alg = .ok s0 := ⟨_, rfl⟩
  obtain ⟨s, hs⟩ := C12_integrate_terminates_radau two_ne_zero s0
  exact ⟨s0, s, hb, ⟨_, hs⟩, (C67_zero_reltol_radau two_ne_zero rfl hb (.inr ⟨_, hs⟩)).2.2⟩

/-- `Radau5` with `abstol = 0`. -/
example : ∃ s0 s : Radau.St X 2 Unit, ((decays Radau.alg).set (.abstol (fin 0))).build Radau.alg = .ok s0 ∧
    IntegrateReturns Radau.alg none s0 s ∧ s.sol.retcode ≠ .Success := by
  obtain ⟨s0, hb⟩ : ∃ s0, ((decays Radau.alg).set (.abstol (fin 0))).build Radau.alg = .ok s0 := ⟨_, rfl⟩
  obtain ⟨s, hs⟩ := C12_integrate_terminates_radau two_ne_zero s0
  exact ⟨s0, s, hb, ⟨_, hs⟩, (C67_zero_abstol_radau (r := 1e-3) (x := 0.0) rfl rfl (by norm_num) rfl ⟨1, rfl⟩ hb
    (.inr ⟨_, hs⟩)).2.2⟩

/-- `DormandPrince5` with `abstol = 0`. -/
example : ∃ s0 : DP5.St X 2 Unit, ((decays DP5.alg).set (.abstol (fin 0))).build DP5.alg = .ok s0 ∧
    ∀ fuel, Integ.integrate DP5.alg none fuel s0 = .timeout := by
  obtain ⟨s0, hb⟩ : ∃ s0, ((decays DP5.alg).set (.abstol (fin 0))).build DP5.alg = .ok s0 := ⟨_, rfl⟩
  refine ⟨s0, hb, fun fuel => (C67_zero_abstol_build_dp5 (r := 1e-3) rfl rfl 1 rfl (fun _ u _ h => ?_) hb fuel).2⟩
  change -u 1 = fin 0
  rw [h]; simp

end
end Cyphus
