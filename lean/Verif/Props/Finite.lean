import Verif.Proofs.Finite
import Verif.Proofs.Sample
/-!
# Only finite states are recorded (C65), pivot indices stay in range (C66)
-/

namespace Cyphus
open X
set_option autoImplicit false
set_option linter.unusedSectionVars false

noncomputable section
variable {n : ℕ} {P : Type}

namespace DP5

/-- If the error estimate passes the test then the new state and the step are finite. -/
theorem fin_of_err {s : St X n P} (h : Fl.le (errOf s) 1.0 = true) :
    ((∀ i, IsFin (s.u i)) → ∀ i, IsFin ((compute_stages s).cache.unew i)) ∧ (n ≠ 0 → IsFin s.dt) := by
  have h1 : IsFin (errOf s) := by
    have hn : Radau.NN (errOf s) := Radau.NN.sqrt _
    generalize errOf s = e at h hn
    cases e with
    | fin r => exact ⟨r, rfl⟩
    | nan => cases h
    | ninf => exact absurd rfl hn.1
    | pinf => cases h
  have h2 : ∀ i, IsFin ((compute_stages s).cache.uerr i) := by
    intro i
    have := IsFin.sumLoop h1.of_sqrt.of_div i
    exact (IsFin.mul_iff.1 this).1.of_div
  have h3 : ∀ i, IsFin s.dt ∧ IsFin (s.cache.du i) ∧ IsFin ((compute_stages s).cache.k3 i) ∧
      IsFin ((compute_stages s).cache.k4 i) ∧ IsFin ((compute_stages s).cache.k5 i) ∧
      IsFin ((compute_stages s).cache.k6 i) := by
    intro i
    have := h2 i
    simp only [compute_stages, IsFin.mul_iff, IsFin.add_iff] at this ⊢
    exact ⟨this.1, this.2.1.1.1.1.1.2, this.2.1.1.1.1.2.2, this.2.1.1.1.2.2, this.2.1.1.2.2, this.2.1.2.2⟩
  refine ⟨fun hu i => ?_, fun hn => (h3 ⟨0, by omega⟩).1⟩
  have := h3 i
  simp only [compute_stages, IsFin.mul_iff, IsFin.add_iff] at this ⊢
  exact ⟨hu i, this.1, ⟨⟨⟨⟨⟨_, A71_fin⟩, this.2.1⟩, ⟨_, A73_fin⟩, this.2.2.1⟩, ⟨_, A74_fin⟩, this.2.2.2.1⟩,
    ⟨_, A75_fin⟩, this.2.2.2.2.1⟩, ⟨_, A76_fin⟩, this.2.2.2.2.2⟩

/-- What is finite during a run. -/
structure FinRun (t0 : X) (s : St X n P) : Prop where
  u : ∀ i, IsFin (s.u i)
  us : ∀ v ∈ s.sol.us, ∀ i, IsFin (v i)
  t : n ≠ 0 → IsFin t0 → IsFin s.t ∧ ∀ t ∈ s.sol.ts, IsFin t

theorem FinRun.step {t0 : X} {s s' : St X n P} {fuel : ℕ} (H : FinRun t0 s) (h : step fuel s = .ok s') : FinRun t0 s' := by
  obtain ⟨k, s1, -, hr, he, -, hs', sp⟩ := step_spec h
  have f := (Frame.clampLast s).trans hr.spec.frame
  obtain ⟨h1, h2⟩ := fin_of_err (s := s1) he
  replace h1 := h1 (fun i => by rw [f.u]; exact H.u i)
  have hu : ∀ i, IsFin (s'.u i) := by
    intro i
    have : s'.u = (compute_stages s1).cache.unew := by rw [hs']; simp
    rw [this]; exact h1 i
  have ht : n ≠ 0 → IsFin t0 → IsFin s'.t := by
    intro hn h0
    have : s'.t = s1.t + s1.dt := by rw [hs']; simp
    rw [this, IsFin.add_iff, f.t]
    exact ⟨(H.t hn h0).1, h2 hn⟩
  refine ⟨hu, ?_, fun hn h0 => ⟨ht hn h0, ?_⟩⟩
  · rw [sp.us]
    intro v hv
    rcases List.mem_append.1 hv with hv | hv
    · exact H.us v hv
    · rw [List.mem_singleton.1 hv]; exact hu
  · rw [sp.ts]
    intro t hv
    rcases List.mem_append.1 hv with hv | hv
    · exact (H.t hn h0).2 t hv
    · rw [List.mem_singleton.1 hv]; exact ht hn h0

end DP5

/-- **C65** Whatever the right-hand side returns — NaN and infinities included — `DormandPrince5` started at a finite state
records finite states only, and (systems of size zero aside) finite times if the initial time is finite. -/
theorem C65_finite_dp5 {b : Builder X n P} {s0 s : DP5.St X n P} (hu : ∀ i, ∃ x, b.u i = fin x)
    (hb : b.build DP5.alg = .ok s0)
    (hs : (∃ k, SomeSteps DP5.alg none k s0 s) ∨ IntegrateReturns DP5.alg none s0 s) :
    (∀ v ∈ s.sol.us, ∀ i, ∃ x, v i = fin x) ∧ (n ≠ 0 → (∃ x, b.t = fin x) → ∀ t ∈ s.sol.ts, ∃ x, t = fin x) := by
  have bf := DP5.build_fields hb
  have h0 : DP5.FinRun b.t s0 := by
    refine ⟨by rw [bf.2.2.2.2.2.2.2.2.1]; exact hu, by rw [bf.2.1]; simpa [IsFin] using hu, fun _ ht => ?_⟩
    rw [bf.2.2.2.2.2.2.2.1, bf.1]
    exact ⟨ht, by simpa using ht⟩
  have hsome : ∀ {k : ℕ} {s : DP5.St X n P}, SomeSteps DP5.alg none k s0 s → DP5.FinRun b.t s := by
    intro k s hs
    refine SomeSteps.induct (alg := DP5.alg) (I := fun _ s => DP5.FinRun b.t s) h0 ?_ hs
    intro k s o s' hi h1
    obtain ⟨⟨fuel, h1⟩, -⟩ := stepReturns_none_iff.1 h1
    exact DP5.FinRun.step hi h1
  have H : DP5.FinRun b.t s := by
    rcases hs with ⟨k, hs⟩ | hs
    · exact hsome hs
    · obtain ⟨k, s1, h1, h2⟩ := (integrate_iff DP5.fuelMono).1 hs
      obtain ⟨⟨fuel, h2⟩, -⟩ := stepReturns_none_iff.1 h2
      exact (hsome h1).step h2
  exact ⟨H.us, fun hn ht => (H.t hn ht).2⟩

/-! ### `Radau5` -/

theorem Radau.build_pivots {F : Type} [Add F] [Sub F] [Mul F] [Div F] [Neg F] [OfScientific F] [Fl F] [FlInf F]
    {b : Builder F n P} {s : Radau.St F n P} (h : b.build Radau.alg = .ok s) : Radau.Pivots s := by
  have h' : s = _ := (Res.ok.inj h).symm
  subst h'
  exact ⟨fun k hk => ⟨le_rfl, by show (0:ℤ) < n; omega⟩, fun k hk => ⟨le_rfl, by show (0:ℤ) < n; omega⟩⟩

/-- With a positive relative tolerance and a finite `fnewt` the stopping bound of the Newton iteration is finite. -/
theorem Radau.fnewt_ne {o : Opts X} {r x : ℝ} (hr : o.reltol = fin r) (h0 : 0 < r) (hx : o.fnewt = fin x) :
    (Radau.adjustOpts o).fnewt ≠ pinf := by
  have e : Fl.powf o.reltol (2.0 / 3.0) = fin (r ^ (2.0 / 3.0 : ℝ)) := by
    rw [hr, show (2.0 : X) = fin 2.0 from rfl, show (3.0 : X) = fin 3.0 from rfl, div_fin (by norm_num)]
    change powX _ _ = _
    rw [powX_fin, powR, if_neg (by norm_num), if_pos h0]
  have hp : (0:ℝ) < 0.1 * r ^ (2.0 / 3.0 : ℝ) := mul_pos (by norm_num) (Real.rpow_pos_of_pos h0 _)
  simp only [Radau.adjustOpts]
  split
  · rw [e, show (0.1 : X) = fin 0.1 from rfl, mul_fin, show (10.0 : X) = fin 10.0 from rfl, eps_fin, mul_fin,
      div_fin hp.ne', sqrt_fin hp.le, show (0.03 : X) = fin 0.03 from rfl, min_fin, max_fin]
    nofun
  · rw [hx]; nofun

/-- **C65** Whatever the right-hand side and the Jacobian return — NaN and infinities included — `Radau5` started at a
finite state records finite states only. -/
theorem C65_finite_radau {b : Builder X n P} {s0 s : Radau.St X n P} (hu : ∀ i, ∃ x, b.u i = fin x) {r x : ℝ}
    (hr : b.opts.reltol = fin r) (h0 : 0 < r) (hx : b.opts.fnewt = fin x) (hb : b.build Radau.alg = .ok s0)
    (hs : (∃ k, SomeSteps Radau.alg none k s0 s) ∨ IntegrateReturns Radau.alg none s0 s) :
    ∀ v ∈ s.sol.us, ∀ i, ∃ x, v i = fin x := by
  have bf := Radau.build_fields hb
  have H : Radau.Pivots s ∧ s.opts = Radau.adjustOpts b.opts ∧ (∀ i, IsFin (s.u i)) ∧ ∀ v ∈ s.sol.us, ∀ i, IsFin (v i) := by
    refine Radau.run_induct hb (I := fun s => Radau.Pivots s ∧ s.opts = Radau.adjustOpts b.opts ∧ (∀ i, IsFin (s.u i)) ∧
      ∀ v ∈ s.sol.us, ∀ i, IsFin (v i)) ⟨Radau.build_pivots hb, bf.2.2.2.2.2.2.2.2.2.2.1, ?_, ?_⟩ ?_ hs
    · rw [bf.2.2.2.2.2.2.2.1]; exact hu
    · rw [bf.2.1]; simpa [IsFin] using hu
    · rintro s s' fuel hrd ⟨h1, h2, h3, h4⟩ hst
      refine ⟨h1.step hst, (Radau.step_cases hrd hst).1.opts.trans h2, ?_⟩
      obtain ⟨s1, s2, p1, -, p2, p3, -, -, p4, p5, p6⟩ | ⟨-, p1, p2⟩ := Radau.step_newton hrd h1 hst
      · have hz := (Radau.newton_fin p4 p1 (by rw [p3, h2]; exact Radau.fnewt_ne hr h0 hx)).1
        have hu' : ∀ i, IsFin (s'.u i) := by
          intro i
          rw [p5]
          exact IsFin.add_iff.2 ⟨h3 i, hz i⟩
        refine ⟨hu', ?_⟩
        rw [p6]
        intro v hv
        rcases List.mem_append.1 hv with hv | hv
        · exact h4 v hv
        · rw [List.mem_singleton.1 hv]; exact hu'
      · rw [p1, p2]; exact ⟨h3, h4⟩
  exact H.2.2.2

/-- **C65** If the right-hand side never returns a finite vector then `Radau5` records nothing but the initial point and
does not report `Success`. -/
theorem C65_never_finite_radau {b : Builder X n P} {s0 s : Radau.St X n P} {r x : ℝ}
    (hf : ∀ buf u t, ∃ i, ∀ y, b.dudt b.params buf u t i ≠ fin y)
    (hr : b.opts.reltol = fin r) (h0 : 0 < r) (hx : b.opts.fnewt = fin x) (hb : b.build Radau.alg = .ok s0)
    (hs : (∃ k, SomeSteps Radau.alg none k s0 s) ∨ IntegrateReturns Radau.alg none s0 s) :
    s.sol.ts = [b.t] ∧ s.sol.us = [b.u] ∧ s.sol.retcode ≠ .Success := by
  have bf := Radau.build_fields hb
  have bd : s0.dudt = b.dudt ∧ s0.params = b.params := by
    rw [← Res.ok.inj hb]; exact ⟨rfl, rfl⟩
  have H : Radau.Pivots s ∧ s.opts = Radau.adjustOpts b.opts ∧ s.dudt = b.dudt ∧ s.params = b.params ∧
      s.sol.ts = [b.t] ∧ s.sol.us = [b.u] ∧ s.sol.retcode ≠ .Success := by
    refine Radau.run_induct hb (I := fun s => Radau.Pivots s ∧ s.opts = Radau.adjustOpts b.opts ∧ s.dudt = b.dudt ∧
      s.params = b.params ∧ s.sol.ts = [b.t] ∧ s.sol.us = [b.u] ∧ s.sol.retcode ≠ .Success)
      ⟨Radau.build_pivots hb, bf.2.2.2.2.2.2.2.2.2.2.1, bd.1, bd.2, bf.1, bf.2.1, by rw [bf.2.2.1]; nofun⟩ ?_ hs
    rintro s s' fuel hrd ⟨h1, h2, h3, h4, h5, h6, -⟩ hst
    obtain ⟨sf, hc⟩ := Radau.step_cases hrd hst
    refine ⟨h1.step hst, sf.opts.trans h2, sf.dudt.trans h3, sf.params.trans h4, ?_⟩
    obtain ⟨s1, s2, p1, -, p2, p3, p7, p8, p4, p5, p6⟩ | ⟨-, p1, p2⟩ := Radau.step_newton hrd h1 hst
    · obtain ⟨buf, u, t, h⟩ := (Radau.newton_fin p4 p1 (by rw [p3, h2]; exact Radau.fnewt_ne hr h0 hx)).2.1
      rw [p7, p8, h3, h4] at h
      obtain ⟨i, hi⟩ := hf buf u t
      obtain ⟨y, hy⟩ := h i
      exact absurd hy (hi y)
    · rcases hc with hc | hc
      · have := hc.us
        rw [p2] at this
        simp at this
      · refine ⟨hc.frame.ts.trans h5, hc.frame.us.trans h6, ?_⟩
        rcases hc.retcode with h | h | h <;> rw [h] <;> nofun
  exact H.2.2.2.2

/-! ### Cases meeting the hypotheses -/

/-- `u' = NaN` for `u > 2`, `u' = 3 u` otherwise, on `[0, 1]`: the default builder. -/
def cliff (alg : Algorithm X 1 Unit) : Builder X 1 Unit :=
  Builder.default alg (fun _ _ u _ => fun i => if Fl.gt (u i) (fin 2) then nan else fin 3 * u i) (fv fun _ => 1)
    (fin 0, fin 1) ()

/-- For `Radau5` the run exists. -/
example : ∃ s0 s : Radau.St X 1 Unit, (cliff Radau.alg).build Radau.alg = .ok s0 ∧
    IntegrateReturns Radau.alg none s0 s ∧ ∀ v ∈ s.sol.us, ∀ i, ∃ x, v i = fin x := by
  obtain ⟨s0, hb⟩ : ∃ s0, (cliff Radau.alg).build Radau.alg = .ok s0 := ⟨_, rfl⟩
  obtain ⟨s, hs⟩ := C12_integrate_terminates_radau one_ne_zero s0
  exact ⟨s0, s, hb, ⟨_, hs⟩, C65_finite_radau (fun _ => ⟨_, rfl⟩) (r := 1e-3) (x := 0.0) rfl (by norm_num) rfl hb
    (.inr ⟨_, hs⟩)⟩

/-- For `DormandPrince5`: a complete run. -/
example : ∃ s0 s1 s2 : DP5.St X 1 Unit, (DP5.sampleBuilder 1.1e-6).build DP5.alg = .ok s0 ∧
    StepReturns DP5.alg none s0 (some 1) s1 ∧ StepReturns DP5.alg none s1 none s2 ∧ s2.sol.retcode = .Success ∧
    ∀ i, ∃ x, (DP5.sampleBuilder 1.1e-6).u i = fin x := by
  obtain ⟨s0, s1, s2, hb, h1, h2, hc, -⟩ := DP5.sample_run
  exact ⟨s0, s1, s2, hb, h1, h2, hc, fun _ => ⟨_, rfl⟩⟩

/-- A right-hand side which is never finite. -/
example : ∃ s0 s : Radau.St X 1 Unit,
    (Builder.default Radau.alg (fun _ _ _ _ _ => nan) (fv fun _ => 1) (fin 0, fin 1) ()).build Radau.alg = .ok s0 ∧
    IntegrateReturns Radau.alg none s0 s ∧ s.sol.us = [fv fun _ => 1] ∧ s.sol.retcode ≠ .Success := by
  obtain ⟨s0, hb⟩ : ∃ s0 : Radau.St X 1 Unit,
    (Builder.default Radau.alg (fun _ _ _ _ _ => nan) (fv fun _ => 1) (fin 0, fin 1) ()).build Radau.alg = .ok s0 := ⟨_, rfl⟩
  obtain ⟨s, hs⟩ := C12_integrate_terminates_radau one_ne_zero s0
  exact ⟨s0, s, hb, ⟨_, hs⟩, (C65_never_finite_radau (fun _ _ _ => ⟨0, fun _ h => by cases h⟩) (r := 1e-3) (x := 0.0) rfl (by norm_num) rfl
    hb (.inr ⟨_, hs⟩)).2⟩

end
end Cyphus
