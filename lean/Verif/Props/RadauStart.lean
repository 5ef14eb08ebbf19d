import Verif.Props.RadauStep
import Verif.Props.RadauExamples
import Verif.Spec.Extrapolate
import Mathlib.Algebra.Polynomial.Eval.Degree
import Mathlib.Tactic.ComputeDegree
/-!
# C76: how the Newton iteration starts and ends
-/

namespace Cyphus
open X
set_option autoImplicit false
set_option linter.unusedSectionVars false
noncomputable section

variable {n : ℕ} {P : Type}

theorem contr5_poly (c₁ c₂ : ℝ) (κ : Fin 4 → ℝ) (t h : ℝ) : ∃ q : Polynomial ℝ, q.degree ≤ 3 ∧
    ∀ x, q.eval x = Spec.contr5 c₁ c₂ κ ((x - t) / h) := by
  refine ⟨Polynomial.C (κ 0) + (Polynomial.C h⁻¹ * (Polynomial.X - Polynomial.C t)) * (Polynomial.C (κ 1) + (Polynomial.C h⁻¹ * (Polynomial.X - Polynomial.C t) -
    Polynomial.C (c₂ - 1)) * (Polynomial.C (κ 2) + (Polynomial.C h⁻¹ * (Polynomial.X - Polynomial.C t) - Polynomial.C (c₁ - 1)) * Polynomial.C (κ 3))), ?_, fun x => ?_⟩
  · compute_degree
  · simp [Spec.contr5]
    ring

variable {b : Builder X n P} {f : ℝ → (Fin n → ℝ) → Fin n → ℝ}
  {jac : ℝ → (Fin n → ℝ) → Fin n → Fin n → ℝ} {u0 : Fin n → ℝ} {C : Radau.Clock} {s0 s s' : Radau.St X n P} {k : ℕ}
  {o : Option ℕ}

theorem radau_start_zero {h : ℝ} {y₀ : Fin 3 → Fin n → ℝ} (H : Radau.StartVals s h y₀)
    (hz : s.cache.first = true ∨ s.opts.use_ext_col = false) : y₀ = 0 := by
  unfold Radau.StartVals at H
  rw [if_pos (by rcases hz with h | h <;> simp [h])] at H
  funext k i
  exact H k i

theorem extrapolates_of {t h h' : ℝ} {u : Fin n → ℝ} {z y₀ : Fin 3 → Fin n → ℝ} (H : Radau.StartVals s' h' y₀)
    (hf : s'.cache.first = false) (hx : s'.opts.use_ext_col = true) (hd : s'.dtprev = fin h)
    (k1 : s'.cache.cont1 = fv fun i => (z 1 i - z 2 i) / Radau.C2M1)
    (k2 : s'.cache.cont2 = fv fun i => ((z 0 i - z 1 i) / Radau.C1MC2 - (z 1 i - z 2 i) / Radau.C2M1) / Radau.C1M1)
    (k3 : s'.cache.cont3 = fv fun i => ((z 0 i - z 1 i) / Radau.C1MC2 - (z 1 i - z 2 i) / Radau.C2M1) / Radau.C1M1 -
      ((z 0 i - z 1 i) / Radau.C1MC2 - z 0 i / Radau.C1) / Radau.C2) : Spec.Extrapolates Radau.codeC t h u z h' y₀ := by
  unfold Radau.StartVals at H
  rw [if_neg (by simp [hf, hx])] at H
  obtain ⟨hp, κ1, κ2, κ3, e0, n0, e1, e2, e3, hy⟩ := H
  rw [hd, fin_inj] at e0
  subst e0
  rw [k1] at e1
  rw [k2] at e2
  rw [k3] at e3
  have e1 := Radau.fv_inj e1
  have e2 := Radau.fv_inj e2
  have e3 := Radau.fv_inj e3
  subst e1 e2 e3
  intro i
  obtain ⟨q, q1, q2⟩ := contr5_poly Radau.C1 Radau.C2 (codeKappa u z i) (t + h) h
  obtain ⟨i1, i2, i3, i4⟩ := codeKappa_interp u z i
  refine ⟨q, q1, ?_, fun k => ?_, fun k => ?_⟩
  · rw [q2, ← i1]
    congr 1
    field_simp
    ring
  · rw [q2]
    have e : (t + Radau.codeC k * h - (t + h)) / h = Radau.codeC k - 1 := by
      field_simp
      ring
    rw [e]
    fin_cases k
    · exact i2
    · exact i3
    · show _ = u i + z 2 i
      rw [← i4]
      simp [Radau.codeC]
  · rw [q2, hy]
    have e : (t + h + Radau.codeC k * h' - (t + h)) / h = Radau.codeC k * (h' / h) := by
      field_simp
      ring
    rw [e]
    simp only [Spec.contr5, codeKappa, Matrix.cons_val_zero, Matrix.cons_val_one, Matrix.cons_val]
    ring

theorem radau_start_ext {E : Radau.NEnv n} {fwd : Prop} {t h hf h' : ℝ} {u : Fin n → ℝ} {J : Fin n → Fin n → ℝ}
    {g y Δ z y₀ : Fin 3 → Fin n → ℝ} (S : Radau.StepR E C fwd t h hf u J g y Δ z s s') (H : Radau.StartVals s' h' y₀)
    (hx : s'.opts.use_ext_col = true) : Spec.Extrapolates Radau.codeC t h u z h' y₀ :=
  extrapolates_of H S.later hx S.dtprev S.cont1 S.cont2 S.cont3

/-- **C76** Every accepted step of `Radau5` is the result of a Newton iteration with at least one and at most `max_newt_iter`
passes, counted by the integrator. The iteration starts with zero increments in the first step of a run, and in every step if
`use_ext_col` is not set. -/
theorem C76_newton_count_radau (R : Radau.RealProblem b f jac u0) (T : Radau.Timed C b) (hn : n ≠ 0)
    (hc : ∀ t u, Spec.FirstNotEigen (C.Sane ∧ C.t0 ≤ C.tf) (jac t u)) (hb : b.build Radau.alg = .ok s0)
    (hs : SomeSteps Radau.alg none k s0 s) (h : StepReturns Radau.alg none s o s')
    (ha : s'.sol.retcode = .Continue ∨ s'.sol.retcode = .Success) :
    ∃ t h hf u J y₀ j g y Δ z, s.t = fin t ∧ s.u = fv u ∧ s'.t = fin (t + h) ∧ s'.u = fv (u + z 2) ∧
      Spec.NewtonRun Radau.codeTransform Radau.codeC f J t h hf u y₀ j g y ∧
      Spec.NewtonPass Radau.codeTransform Radau.codeC f J t h hf u g y Δ z ∧
      s'.cache.newt = j + 1 ∧ j + 1 ≤ b.opts.max_newt_iter ∧ (k = 0 ∨ b.opts.use_ext_col = false → y₀ = 0) := by
  obtain ⟨t, h, hf, u, J, g, y, Δ, z, S, ho, -⟩ := radau_accepted R T hn hc hb hs h ha
  obtain ⟨_, hi⟩ := S.idle.idle
  obtain ⟨y₀, j, st, run, c1, c2⟩ := S.count
  rw [ho] at c2
  refine ⟨t, h, hf, u, J, y₀, j, g, y, Δ, z, S.time, S.state, hi.time, S.next, run, S.pass, c1, ?_, fun hz => ?_⟩
  · rw [← Res.ok.inj hb] at c2
    exact c2
  · refine radau_start_zero st (hz.imp ?_ ?_)
    · rintro rfl
      obtain rfl := Steps.zero_eq rfl hs.steps
      rw [← Res.ok.inj hb]
    · intro hz
      rw [ho, ← Res.ok.inj hb]
      exact hz

/-- **C76** With `use_ext_col` set, the Newton iteration of an accepted step which follows an accepted step starts with the
stage values extrapolated from that step: the cubic polynomial through the beginning and the three stages of the step before,
evaluated at the stages of the new step. -/
theorem C76_newton_start_radau (R : Radau.RealProblem b f jac u0) (T : Radau.Timed C b) (hn : n ≠ 0)
    (hc : ∀ t u, Spec.FirstNotEigen (C.Sane ∧ C.t0 ≤ C.tf) (jac t u)) (hb : b.build Radau.alg = .ok s0)
    (hx : b.opts.use_ext_col = true) (hs : SomeSteps Radau.alg none k s0 s) {i : ℕ} {s'' : Radau.St X n P}
    (h : StepReturns Radau.alg none s (some i) s')
    (h' : StepReturns Radau.alg none s' o s'') (ha : s''.sol.retcode = .Continue ∨ s''.sol.retcode = .Success) :
    ∃ t h hf u J g y Δ z h' hf' J' y₀ j g' y' Δ' z',
      s.t = fin t ∧ s.u = fv u ∧ s'.t = fin (t + h) ∧ s'.u = fv (u + z 2) ∧
      s''.t = fin (t + h + h') ∧ s''.u = fv (u + z 2 + z' 2) ∧
      Spec.NewtonPass Radau.codeTransform Radau.codeC f J t h hf u g y Δ z ∧
      Spec.NewtonRun Radau.codeTransform Radau.codeC f J' (t + h) h' hf' (u + z 2) y₀ j g' y' ∧
      Spec.NewtonPass Radau.codeTransform Radau.codeC f J' (t + h) h' hf' (u + z 2) g' y' Δ' z' ∧
      s''.cache.newt = j + 1 ∧ Spec.Extrapolates Radau.codeC t h u z h' y₀ := by
  have hc1 : s'.sol.retcode = .Continue := by
    by_contra hcon
    obtain ⟨-, ho⟩ := stepReturns_none_iff.1 h
    simp [hcon] at ho
  obtain ⟨t, h1, hf, u, J, g, y, Δ, z, S, -⟩ := radau_accepted R T hn hc hb hs h (.inl hc1)
  obtain ⟨t', h2, hf', u', J', g', y', Δ', z', S', ho, -⟩ :=
    radau_accepted R T hn hc hb (.succ (alg := Radau.alg) hs h) h' ha
  obtain ⟨_, hi⟩ := S.idle.idle
  obtain ⟨_, hi'⟩ := S'.idle.idle
  have et : t' = t + h1 := fin_inj.1 (S'.time.symm.trans hi.time)
  have eu : u' = u + z 2 := by
    funext i
    exact fin_inj.1 (congrFun (S'.state.symm.trans S.next) i)
  subst et eu
  obtain ⟨y₀, j, st, run, c1, c2⟩ := S'.count
  refine ⟨t, h1, hf, u, J, g, y, Δ, z, h2, hf', J', y₀, j, g', y', Δ', z', S.time, S.state, hi.time, S.next, hi'.time,
    S'.next, S.pass, run, S'.pass, c1, radau_start_ext S st ?_⟩
  rw [ho, ← Res.ok.inj hb]
  exact hx

/-- A run of two steps with the default options meets the hypotheses: the second step starts with the extrapolated values. -/
example : ∃ s0 s1 s2 : Radau.St X 2 Unit, (Radau.constBuilder ![1, -1] ![0, 3] 0 1.1e-6).build Radau.alg = .ok s0 ∧
    SomeSteps Radau.alg none 1 s0 s1 ∧ StepReturns Radau.alg none s1 none s2 ∧
    ∃ t h u z h' hf' J' y₀ j g' y', Spec.NewtonRun Radau.codeTransform Radau.codeC (fun _ _ => ![1, -1]) J' (t + h) h' hf' (u + z 2)
      y₀ j g' y' ∧ s2.cache.newt = j + 1 ∧ Spec.Extrapolates Radau.codeC t h u z h' y₀ := by
  obtain ⟨s0, s1, s2, hb, hs, h1, h2, -, -, -, c2⟩ := const_runs ![1, -1] (by simp [Fin.forall_fin_two]) ![0, 3]
  refine ⟨s0, s1, s2, hb, hs, h2, ?_⟩
  obtain ⟨t, h, hf, u, J, g, y, Δ, z, h', hf', J', y₀, j, g', y', Δ', z', -, -, -, -, -, -, -, e1, -, e2, e3⟩ :=
    C76_newton_start_radau (Radau.const_problem ![1, -1] ![0, 3] 0 1.1e-6) (Radau.const_timed ![1, -1] ![0, 3] 0 1.1e-6)
      two_ne_zero (jac_const_ok ![1, -1] ![0, 3] _) hb rfl (.zero (alg := Radau.alg) s0) h1 h2 (.inr c2)
  exact ⟨t, h, u, z, h', hf', J', y₀, j, g', y', e1, e2, e3⟩

end
end Cyphus
