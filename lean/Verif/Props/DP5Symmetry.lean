import Verif.Proofs.DP5Sim
import Verif.Props.DP5Exact
/-!
# C23, C57: the results of `DormandPrince5` do not depend on the choice of units and labels (exact arithmetic)
-/

namespace Cyphus
open X
set_option linter.unusedSectionVars false
set_option autoImplicit false
noncomputable section
variable {n m : ℕ} {P P' : Type} {E : DP5.Env n} {E' : DP5.Env m} {b : Builder X n P} {b' : Builder X m P'}
  {t0 c lam : ℝ} {u0 : Fin n → ℝ} {w : Fin m → ℝ} {σ : Fin m → Fin n}
  {s0 : DP5.St X n P} {s0' : DP5.St X m P'}

theorem DP5.Related.dir (R : DP5.Related c lam w σ E E') (H : DP5.Problem E b t0 u0)
    (H' : DP5.Problem E' b' (t0 + c) (DP5.relabel w σ u0)) : E'.d = E.d := by
  rw [H.dir, H'.dir, R.tfinal, show E.tf + c - (t0 + c) = E.tf - t0 by ring]

/-- **C57** If `E'` is the problem `E` with relabelled, rescaled (together with `abstol`), sign-changed or duplicated
components and moved time origin, then after the same number of `step()` calls the recorded points are the
relabelled ones and the statistics are the same. The return codes agree unless one of them is `DtLessThanMin`
(which depends on the distance of `t` to zero). -/
theorem C57_relabelling_dp5 (H : DP5.Problem E b t0 u0) (H' : DP5.Problem E' b' (t0 + c) (DP5.relabel w σ u0))
    (R : DP5.Related c lam w σ E E') (ho : b'.opts.max_steps = b.opts.max_steps)
    (hb : b.build DP5.alg = .ok s0) (hb' : b'.build DP5.alg = .ok s0') {k : ℕ} {s : DP5.St X n P}
    (hs : Steps DP5.alg none k s0 s) :
    ∃ s' l, Steps DP5.alg none k s0' s' ∧ Recorded s.sol l ∧
      Recorded s'.sol (l.map fun p => (p.1 + c, DP5.relabel w σ p.2)) ∧ s'.stats = s.stats ∧ s'.dt = s.dt ∧
      (s'.sol.retcode = s.sol.retcode ∨ s.sol.retcode = .DtLessThanMin ∨ s'.sol.retcode = .DtLessThanMin) := by
  have S := DP5.Sim.build H H' ho hb hb'
  obtain ⟨s', t, u, h, h1, S1⟩ := S.steps R (R.dir H H') hs
  obtain ⟨l, h2, h3⟩ := S1.recorded
  exact ⟨s', l, h1, h2, h3, S1.stats, by rw [S1.left.num.dt, S1.right.num.dt], S1.code⟩

/-- **C57** The same for `integrate()`: if neither run ends with `DtLessThanMin`, they end with the same code after
the same steps. -/
theorem C57_relabelling_integrate_dp5 (H : DP5.Problem E b t0 u0)
    (H' : DP5.Problem E' b' (t0 + c) (DP5.relabel w σ u0))
    (R : DP5.Related c lam w σ E E') (ho : b'.opts.max_steps = b.opts.max_steps)
    (hb : b.build DP5.alg = .ok s0) (hb' : b'.build DP5.alg = .ok s0') {s : DP5.St X n P} {s' : DP5.St X m P'}
    (hs : IntegrateReturns DP5.alg none s0 s) (hs' : IntegrateReturns DP5.alg none s0' s')
    (hc : s.sol.retcode ≠ .DtLessThanMin) (hc' : s'.sol.retcode ≠ .DtLessThanMin) :
    s'.sol.retcode = s.sol.retcode ∧ s'.stats = s.stats ∧
      ∃ l, Recorded s.sol l ∧ Recorded s'.sol (l.map fun p => (p.1 + c, DP5.relabel w σ p.2)) := by
  have S := DP5.Sim.build H H' ho hb hb'
  have hd := R.dir H H'
  obtain ⟨k, s1, h1, h2⟩ := (integrate_iff DP5.fuelMono).1 hs
  obtain ⟨k', s1', h1', h2'⟩ := (integrate_iff DP5.fuelMono).1 hs'
  have hk : Steps DP5.alg none (k + 1) s0 s := .succ h1.steps h2
  have hk' : Steps DP5.alg none (k' + 1) s0' s' := .succ h1'.steps h2'
  have ne : s.sol.retcode ≠ .Continue := by
    intro hcon
    have := (stepReturns_none_iff.1 h2).2
    rw [hcon] at this; simp at this
  have ne' : s'.sol.retcode ≠ .Continue := by
    intro hcon
    have := (stepReturns_none_iff.1 h2').2
    rw [hcon] at this; simp at this
  -- the states of a run before its end
  have cont : ∀ {m : ℕ} {P : Type} {E : DP5.Env m} {b : Builder X m P} {t0 : ℝ} {u0 : Fin m → ℝ} {s0 s : DP5.St X m P},
      DP5.Problem E b t0 u0 → b.build DP5.alg = .ok s0 → ∀ {k j : ℕ} {s1 : DP5.St X m P},
      SomeSteps DP5.alg none k s0 s1 → j ≤ k → Steps DP5.alg none j s0 s → s.sol.retcode = .Continue := by
    intro m P E b t0 u0 s0 s H hb k j s1 h1 hj hs
    induction k generalizing s1 with
    | zero =>
      obtain rfl : j = 0 := by omega
      obtain rfl := Steps.zero_eq rfl hs
      exact (H.build hb).2.2.2.2.2.1
    | succ k ih =>
      by_cases hjk : j = k + 1
      · subst hjk
        have : s = s1 := Steps.unique DP5.fuelMono hs h1.steps
        subst this
        exact (H.some_last hb h1).1
      · obtain ⟨s2, i, h2, -⟩ := SomeSteps.cases_snoc h1
        exact ih h2 (by omega)
  obtain ⟨s2, t, u, h, h3, S3⟩ := S.steps R hd hk
  have hkk : k' = k := by
    rcases Nat.lt_trichotomy k' k with hlt | heq | hgt
    · -- the relabelled run stops first
      obtain ⟨j, hj⟩ : ∃ j, k = k' + 1 + j := ⟨k - (k' + 1), by omega⟩
      obtain ⟨s4, h4⟩ : ∃ s4, Steps DP5.alg none (k' + 1) s0 s4 := by
        subst hj
        exact Steps.truncate (show k' + 1 ≤ k' + 1 + j + 1 by omega) hk
      obtain ⟨s5, _, _, _, h5, S5⟩ := S.steps R hd h4
      have : s5 = s' := Steps.unique DP5.fuelMono h5 hk'
      subst this
      have hcon := cont H hb h1 (by omega) h4
      rcases S5.code with hx | hx | hx
      · exact absurd (hx.trans hcon) ne'
      · rw [hcon] at hx; cases hx
      · exact absurd hx hc'
    · exact heq
    · obtain ⟨j, hj⟩ : ∃ j, k' = k + 1 + j := ⟨k' - (k + 1), by omega⟩
      have hcon := cont H' hb' h1' (by omega) h3
      rcases S3.code with hx | hx | hx
      · exact absurd (hx.symm.trans hcon) ne
      · exact absurd hx hc
      · rw [hcon] at hx; cases hx
  subst hkk
  have : s2 = s' := Steps.unique DP5.fuelMono h3 hk'
  subst this
  obtain ⟨l, h4, h5⟩ := S3.recorded
  exact ⟨(S3.code.resolve_right (by simp [hc, hc'])), S3.stats, l, h4, h5⟩

/-- Moving the time origin is a special case. -/
theorem DP5.Related.shift (E : DP5.Env n) (c : ℝ) :
    DP5.Related c 1 (fun _ : Fin n => 1) id E { E with f := fun t u => E.f (t - c) u, tf := E.tf + c } := by
  refine ⟨?_, by simp, one_pos, ⟨1, one_ne_zero, fun j => by
    rw [Finset.card_eq_one]; exact ⟨j, by ext i; simp⟩⟩, by simp, rfl, rfl, rfl, rfl, rfl, rfl, rfl⟩
  intro t u
  have : DP5.relabel (fun _ : Fin n => (1 : ℝ)) id u = u := by funext i; simp [DP5.relabel]
  rw [this]
  funext i
  simp [DP5.relabel]

/-- **C23** Time translation: integrating `f(t - c, u)` from `t0 + c` to `tfinal + c` gives the same vectors at the
shifted times. -/
theorem C23_time_translation_dp5 {b' : Builder X n P'} {s0' : DP5.St X n P'} (H : DP5.Problem E b t0 u0)
    (H' : DP5.Problem { E with f := fun t u => E.f (t - c) u, tf := E.tf + c } b' (t0 + c) u0)
    (ho : b'.opts.max_steps = b.opts.max_steps)
    (hb : b.build DP5.alg = .ok s0) (hb' : b'.build DP5.alg = .ok s0') {k : ℕ} {s : DP5.St X n P}
    (hs : Steps DP5.alg none k s0 s) :
    ∃ s', Steps DP5.alg none k s0' s' ∧ s'.sol.us = s.sol.us ∧ s'.sol.ts = s.sol.ts.map (· + fin c) ∧
      s'.stats = s.stats ∧
      (s'.sol.retcode = s.sol.retcode ∨ s.sol.retcode = .DtLessThanMin ∨ s'.sol.retcode = .DtLessThanMin) := by
  have e : ∀ u : Fin n → ℝ, DP5.relabel (fun _ : Fin n => (1 : ℝ)) id u = u := by
    intro u; funext i; simp [DP5.relabel]
  obtain ⟨s', l, h1, h2, h3, h4, -, h5⟩ := C57_relabelling_dp5 H (by rw [e]; exact H') (DP5.Related.shift E c) ho hb hb' hs
  refine ⟨s', h1, ?_, ?_, h4, h5⟩
  · rw [h2.2, h3.2, List.map_map]
    refine List.map_congr_left fun p _ => ?_
    simp [e]
  · rw [h2.1, h3.1, List.map_map, List.map_map]
    exact List.map_congr_left fun p _ => by simp

/-- **C23** The same for `integrate()`. -/
theorem C23_time_translation_integrate_dp5 {b' : Builder X n P'} {s0' : DP5.St X n P'} (H : DP5.Problem E b t0 u0)
    (H' : DP5.Problem { E with f := fun t u => E.f (t - c) u, tf := E.tf + c } b' (t0 + c) u0)
    (ho : b'.opts.max_steps = b.opts.max_steps)
    (hb : b.build DP5.alg = .ok s0) (hb' : b'.build DP5.alg = .ok s0') {s : DP5.St X n P} {s' : DP5.St X n P'}
    (hs : IntegrateReturns DP5.alg none s0 s) (hs' : IntegrateReturns DP5.alg none s0' s')
    (hc : s.sol.retcode ≠ .DtLessThanMin) (hc' : s'.sol.retcode ≠ .DtLessThanMin) :
    s'.sol.retcode = s.sol.retcode ∧ s'.sol.us = s.sol.us ∧ s'.sol.ts = s.sol.ts.map (· + fin c) ∧
      s'.stats = s.stats := by
  have e : ∀ u : Fin n → ℝ, DP5.relabel (fun _ : Fin n => (1 : ℝ)) id u = u := by
    intro u; funext i; simp [DP5.relabel]
  obtain ⟨h1, h4, l, h2, h3⟩ := C57_relabelling_integrate_dp5 H (by rw [e]; exact H') (DP5.Related.shift E c) ho
    hb hb' hs hs' hc hc'
  refine ⟨h1, ?_, ?_, h4⟩
  · rw [h2.2, h3.2, List.map_map]
    refine List.map_congr_left fun p _ => ?_
    simp [e]
  · rw [h2.1, h3.1, List.map_map, List.map_map]
    exact List.map_congr_left fun p _ => by simp

/-- Cases: `u' = u` (one component) and the two-component system `v0' = v0`, `v1' = v1` with `v = (2u, -2u)`, time
origin moved by 5, `abstol` doubled. -/
example : ∃ (E : DP5.Env 1) (E' : DP5.Env 2) (b : Builder X 1 Unit) (b' : Builder X 2 Unit) (s0 : DP5.St X 1 Unit)
    (s0' : DP5.St X 2 Unit), DP5.Problem E b 0 (fun _ => 1) ∧
    DP5.Problem E' b' (0 + 5) (DP5.relabel ![2, -2] (fun _ => (0 : Fin 1)) fun _ => 1) ∧
    DP5.Related 5 2 ![2, -2] (fun _ => (0 : Fin 1)) E E' ∧ b'.opts.max_steps = b.opts.max_steps ∧
    b.build DP5.alg = .ok s0 ∧ b'.build DP5.alg = .ok s0' := by
  have H := DP5.default_problem (P := Unit) one_ne_zero (dudt := fun _ _ u _ => u) (p := ())
    (f := fun _ u => u) (fun _ _ _ => rfl) 0 1 (fun _ => 1)
  have Q := DP5.default_problem (P := Unit) two_ne_zero (dudt := fun _ _ u _ => u) (p := ())
    (f := fun _ u => u) (fun _ _ _ => rfl) (0 + 5) (1 + 5) (DP5.relabel ![2, -2] (fun _ => (0 : Fin 1)) fun _ => 1)
  have H' : DP5.Problem { DP5.defaultEnv (n := 2) (fun _ u => u) (0 + 5) (1 + 5) with a := 2 * 1e-7 }
      ((Builder.default DP5.alg (fun _ _ u _ => u) (fv (DP5.relabel ![2, -2] (fun _ => (0 : Fin 1)) fun _ => 1))
        (fin (0 + 5), fin (1 + 5)) ()).sets [.abstol (fin (2 * 1e-7))]) (0 + 5)
      (DP5.relabel ![2, -2] (fun _ => (0 : Fin 1)) fun _ => 1) :=
    ⟨Q.rhs, Q.u, Q.t, Q.dt, Q.tfinal, Q.dir, ⟨rfl, Q.tol.reltol, by norm_num, Q.tol.rel_nonneg⟩,
     ⟨Q.ctl.safe, Q.ctl.facl, Q.ctl.facr, Q.ctl.beta, Q.ctl.safe_pos, Q.ctl.facl_pos, Q.ctl.facr_pos,
      Q.ctl.beta_nonneg, Q.ctl.dtmax, Q.ctl.dtmax_pos, Q.ctl.stiff⟩, Q.dim⟩
  refine ⟨_, _, _, _, _, _, H, H', ?_, rfl, rfl, rfl⟩
  refine ⟨fun t u => rfl, ?_, two_pos, ⟨2, two_ne_zero, ?_⟩, rfl, rfl, rfl, rfl, rfl, rfl, rfl, rfl⟩
  · intro i; fin_cases i <;> simp
  · intro j
    have : (Finset.univ.filter fun _ : Fin 2 => (0 : Fin 1) = j) = Finset.univ := by
      obtain rfl : (0 : Fin 1) = j := Subsingleton.elim _ _
      simp
    rw [this]; rfl

end
end Cyphus
