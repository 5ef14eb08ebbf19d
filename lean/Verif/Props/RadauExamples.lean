import Verif.Proofs.RadauSample
import Verif.Props.RadauStale
import Verif.Props.Stats
/-!
# Cases that meet the hypotheses of the theorems about `Radau5`

The runs are `Radau.const_run` (`u' = v`, two steps) and the run of `C44_stale_radau`; and the runs of two problems which
are not linear, which end by C12.
-/

namespace Cyphus
open X
set_option autoImplicit false
set_option linter.unusedSectionVars false
noncomputable section

variable {n : ℕ}

theorem jac_const_ok (v u0 : Fin n → ℝ) (pos : Prop) :
    ∀ t u, Spec.FirstNotEigen (n := n) pos ((fun _ _ _ _ => 0 : ℝ → (Fin n → ℝ) → Fin n → Fin n → ℝ) t u) :=
  fun _ _ h _ h1 _ => ⟨⟨0, by omega⟩, by rw [if_pos rfl]; exact h1.symm⟩

theorem const_runs (v : Fin 2 → ℝ) (hv : ∀ i, |v i| ≤ 1) (u0 : Fin 2 → ℝ) : ∃ s0 s1 s2 : Radau.St X 2 Unit,
    (Radau.constBuilder v u0 0 1.1e-6).build Radau.alg = .ok s0 ∧ SomeSteps Radau.alg none 1 s0 s1 ∧
    StepReturns Radau.alg none s0 (some 1) s1 ∧ StepReturns Radau.alg none s1 none s2 ∧
    IntegrateReturns Radau.alg none s0 s2 ∧ Steps Radau.alg none 2 s0 s2 ∧
    s1.sol.retcode = .Continue ∧ s2.sol.retcode = .Success := by
  obtain ⟨s0, s1, s2, hb, h1, h2, c2, c1, -⟩ := Radau.const_run two_ne_zero v u0 hv
  have S1 : SomeSteps Radau.alg none 1 s0 s1 := .succ (alg := Radau.alg) (.zero (alg := Radau.alg) s0) h1
  exact ⟨s0, s1, s2, hb, S1, h1, h2, (integrate_iff Radau.fuelMono).2 ⟨1, s1, S1, h2⟩,
    .succ (alg := Radau.alg) (.succ (alg := Radau.alg) (.zero (alg := Radau.alg) s0) h1) h2, c1, c2⟩

/-- For C25, C33, C58 and C59 (and C05, C06, C09, C10, C11): a forward run with the default options which ends with
`Success`. -/
example : ∃ (C : Radau.Clock) (b : Builder X 2 Unit) (s0 s : Radau.St X 2 Unit), Radau.Timed C b ∧ C.Sane ∧ C.t0 < C.tf ∧
    b.build Radau.alg = .ok s0 ∧ IntegrateReturns Radau.alg none s0 s ∧ s.sol.retcode = .Success := by
  obtain ⟨s0, s1, s2, hb, -, -, -, hi, -, -, c2⟩ := const_runs ![1, -1] (by simp [Fin.forall_fin_two]) ![0, 3]
  refine ⟨_, _, s0, s2, Radau.const_timed _ _ _ _, Radau.defaultClock_sane _ _ _, ?_, hb, hi, c2⟩
  norm_num [Radau.defaultClock]

/-- For C07, C32, C45 and others: two calls of `step()`, the statistics say two accepted steps, three recorded points. -/
example : ∃ (b : Builder X 2 Unit) (s0 s : Radau.St X 2 Unit), b.build Radau.alg = .ok s0 ∧
    Steps Radau.alg none 2 s0 s ∧ s.sol.retcode = .Success := by
  obtain ⟨s0, s1, s2, hb, -, -, -, -, hs, -, c2⟩ := const_runs ![1, -1] (by simp [Fin.forall_fin_two]) ![0, 3]
  exact ⟨_, s0, s2, hb, hs, c2⟩

/-- For C27 and C28: a run with `dtmax`, which stops neither before nor with the first step. -/
example : ∃ (C : Radau.Clock) (b : Builder X 1 Unit) (s0 s : Radau.St X 1 Unit), Radau.Timed C b ∧ C.Sane ∧ C.t0 < C.tf ∧
    b.build Radau.alg = .ok s0 ∧ C.mx = some 1e-6 ∧ SomeSteps Radau.alg none 0 s0 s0 ∧
    StepReturns Radau.alg none s0 (some 1) s := by
  obtain ⟨s0, s1, s2, hb, h1, -⟩ := C44_stale_radau
  refine ⟨Radau.defaultClock 0 2.00005e-6 (some 1e-6), staleBuilder, s0, s1,
    (Radau.default_timed _ _ _ _ _).dtmax (by norm_num), Radau.defaultClock_sane _ _ _, ?_, hb, rfl,
    .zero (alg := Radau.alg) s0, h1⟩
  norm_num [Radau.defaultClock]

/-- For C16, C43, C44 and C47: an accepted step which is not the first one, with positive tolerances; `dense` is set. -/
example : ∃ (C : Radau.Clock) (b : Builder X 2 Unit) (f : ℝ → (Fin 2 → ℝ) → Fin 2 → ℝ)
    (jac : ℝ → (Fin 2 → ℝ) → Fin 2 → Fin 2 → ℝ) (u0 : Fin 2 → ℝ) (s0 s s' : Radau.St X 2 Unit) (a r : ℝ),
    Radau.RealProblem b f jac u0 ∧ Radau.Timed C b ∧ (∀ t u, Spec.FirstNotEigen (C.Sane ∧ C.t0 ≤ C.tf) (jac t u)) ∧
    b.build Radau.alg = .ok s0 ∧ s0.opts.abstol = fin a ∧ s0.opts.reltol = fin r ∧ 0 < a ∧ 0 ≤ r ∧ s0.opts.dense = true ∧
    SomeSteps Radau.alg none 1 s0 s ∧ StepReturns Radau.alg none s0 (some 1) s ∧ StepReturns Radau.alg none s none s' ∧
    s'.sol.retcode = .Success := by
  obtain ⟨s0, s1, s2, hb, hs, h1, h2, -, -, -, c2⟩ := const_runs ![1, -1] (by simp [Fin.forall_fin_two]) ![0, 3]
  obtain ⟨φ, Q⟩ := Radau.quad_build (Radau.const_problem ![1, -1] ![0, 3] 0 1.1e-6) (Radau.const_timed ![1, -1] ![0, 3] 0 1.1e-6)
    (Radau.const_tol _ _ _ _) (by change 3 ≤ 7; norm_num) hb
  refine ⟨_, _, _, _, _, s0, s1, s2, _, _, Radau.const_problem ![1, -1] ![0, 3] 0 1.1e-6, Radau.const_timed ![1, -1] ![0, 3] 0 1.1e-6,
    jac_const_ok ![1, -1] ![0, 3] _, hb, Q.abstol, Q.reltol, Q.a0, Q.r0, ?_, hs, h1, h2, c2⟩
  rw [← Res.ok.inj hb]
  rfl

/-! ### Problems which are not linear -/

/-- `u₀' = -u₀ u₁`, `u₁' = u₀ u₁`, with the user's Jacobian, on `[0, 1]`. -/
def massBuilder : Builder X 2 Unit :=
  (Builder.default Radau.alg (fun _ _ u _ => ![-(u 0 * u 1), u 0 * u 1]) (fv ![3, 1]) (fin 0, fin 1) ()).set
    (.dfdu fun _ _ u _ => ![![-u 1, -u 0], ![u 1, u 0]])

/-- For C51: the sum of the components is conserved by this problem. -/
example : ∃ s0 s : Radau.St X 2 Unit, massBuilder.build Radau.alg = .ok s0 ∧ IntegrateReturns Radau.alg none s0 s ∧
    Radau.RealProblem massBuilder (fun _ u => ![-(u 0 * u 1), u 0 * u 1]) (fun _ u => ![![-u 1, -u 0], ![u 1, u 0]]) ![3, 1] ∧
    Radau.Timed (Radau.defaultClock 0 1 none) massBuilder ∧
    (∀ u : Fin 2 → ℝ, ∑ i, (fun _ => 1 : Fin 2 → ℝ) i * (![-(u 0 * u 1), u 0 * u 1] : Fin 2 → ℝ) i = 0) ∧
    (∀ (u : Fin 2 → ℝ) j, ∑ i, (fun _ => 1 : Fin 2 → ℝ) i * (![![-u 1, -u 0], ![u 1, u 0]] : Fin 2 → Fin 2 → ℝ) i j = 0) ∧
    ∃ l, Recorded s.sol l ∧ ∀ p ∈ l, p.2 0 + p.2 1 = 4 := by
  obtain ⟨s0, hb⟩ : ∃ s0 : Radau.St X 2 Unit, massBuilder.build Radau.alg = .ok s0 := ⟨_, rfl⟩
  obtain ⟨s, hs⟩ := C12_integrate_terminates_radau two_ne_zero s0
  have hi : IntegrateReturns Radau.alg none s0 s := ⟨_, hs⟩
  have R : Radau.RealProblem massBuilder (fun _ u => ![-(u 0 * u 1), u 0 * u 1])
      (fun _ u => ![![-u 1, -u 0], ![u 1, u 0]]) ![3, 1] := by
    refine ⟨fun _ _ _ => ?_, rfl, fun _ _ _ => ?_⟩
    · funext i
      fin_cases i <;> simp [massBuilder, Builder.set, Builder.default]
    · funext i j
      fin_cases i <;> fin_cases j <;> simp [massBuilder, Builder.set, Builder.default]
  have T : Radau.Timed (Radau.defaultClock 0 1 none) massBuilder := by
    have := Radau.default_timed (n := 2) (P := Unit) (fun _ _ u _ => ![-(u 0 * u 1), u 0 * u 1]) () 0 1 (fv ![3, 1])
    exact ⟨this.1, this.2, this.3, ⟨this.4.1, this.4.2, this.4.3, this.4.4, this.4.5, this.4.6, this.4.7, this.4.8, this.4.9, this.4.10, this.4.11⟩⟩
  have h1 : ∀ u : Fin 2 → ℝ, ∑ i, (fun _ => 1 : Fin 2 → ℝ) i * (![-(u 0 * u 1), u 0 * u 1] : Fin 2 → ℝ) i = 0 := by
    intro u
    simp [Fin.sum_univ_two]
  have h2 : ∀ (u : Fin 2 → ℝ) j, ∑ i, (fun _ => 1 : Fin 2 → ℝ) i *
      (![![-u 1, -u 0], ![u 1, u 0]] : Fin 2 → Fin 2 → ℝ) i j = 0 := by
    intro u j
    fin_cases j <;> simp [Fin.sum_univ_two]
  refine ⟨s0, s, hb, hi, R, T, h1, h2, ?_⟩
  obtain ⟨l, l1, l2⟩ := C51_linear_invariants_radau R T (fun _ => 1) (fun _ => h1) (fun _ _ _ => h2) (fun _ => one_ne_zero) hb (.inr hi)
  refine ⟨l, l1, fun p hp => ?_⟩
  have := l2 p hp
  simp [Fin.sum_univ_two] at this
  rw [this]
  norm_num

/-- `u' = 1 - u²`, with the user's Jacobian, on `[0, 1]`, starting at the equilibrium `1`. -/
def restBuilder : Builder X 1 Unit :=
  (Builder.default Radau.alg (fun _ _ u _ => fun i => fin 1 - u i * u i) (fv fun _ => 1) (fin 0, fin 1) ()).set
    (.dfdu fun _ _ u _ => fun i _ => -(fin 2 * u i))

/-- For C52. -/
example : ∃ s0 s : Radau.St X 1 Unit, restBuilder.build Radau.alg = .ok s0 ∧ IntegrateReturns Radau.alg none s0 s ∧
    Radau.RealProblem restBuilder (fun _ u i => 1 - u i * u i) (fun _ u i _ => -(2 * u i)) (fun _ => 1) ∧
    Radau.Timed (Radau.defaultClock 0 1 none) restBuilder ∧
    ∃ l, Recorded s.sol l ∧ ∀ p ∈ l, p.2 = fun _ => 1 := by
  obtain ⟨s0, hb⟩ : ∃ s0 : Radau.St X 1 Unit, restBuilder.build Radau.alg = .ok s0 := ⟨_, rfl⟩
  obtain ⟨s, hs⟩ := C12_integrate_terminates_radau one_ne_zero s0
  have hi : IntegrateReturns Radau.alg none s0 s := ⟨_, hs⟩
  have R : Radau.RealProblem restBuilder (fun _ u i => 1 - u i * u i) (fun _ u i _ => -(2 * u i)) (fun _ => 1) := by
    refine ⟨fun _ _ _ => ?_, rfl, fun _ _ _ => ?_⟩
    · funext i
      simp [restBuilder, Builder.set, Builder.default]
    · funext i j
      simp [restBuilder, Builder.set, Builder.default]
  have T : Radau.Timed (Radau.defaultClock 0 1 none) restBuilder := by
    have := Radau.default_timed (n := 1) (P := Unit) (fun _ _ u _ => fun i => fin 1 - u i * u i) () 0 1 (fv fun _ => 1)
    exact ⟨this.1, this.2, this.3, ⟨this.4.1, this.4.2, this.4.3, this.4.4, this.4.5, this.4.6, this.4.7, this.4.8, this.4.9, this.4.10, this.4.11⟩⟩
  refine ⟨s0, s, hb, hi, R, T, ?_⟩
  exact C52_equilibrium_radau R T (fun _ => by funext i; simp) (fun _ h => absurd h (by norm_num)) hb (.inr hi)

end
end Cyphus
