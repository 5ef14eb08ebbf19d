import Verif.Proofs.RadauTrial
import Verif.Proofs.RadauDet
import Verif.Props.RadauExamples
/-!
# C80: a run of `Radau5` is a run of the textbook algorithm
-/

namespace Cyphus
open X Spec.Radau5
set_option autoImplicit false
set_option linter.unusedSectionVars false
noncomputable section

namespace Radau
variable {n : ℕ} {P : Type}

/-- The problem `u' = f t u` with the Jacobian `jac`, the times and controller options `C` and the options of the builder `b`
which are not real numbers; `θ₀` is the option `theta`, `a`, `r`, `φ` are the tolerances. The coefficients are those of the
code. -/
def problemOf (b : Builder X n P) (f : ℝ → (_root_.Fin n → ℝ) → _root_.Fin n → ℝ)
    (jac : ℝ → (_root_.Fin n → ℝ) → _root_.Fin n → _root_.Fin n → ℝ) (C : Clock) (θ₀ a r φ : ℝ) : Problem n where
  f := f
  jac := jac
  M := codeTransform
  c := codeC
  C := C
  N := b.opts.max_newt_iter
  φ := φ
  θ₀ := θ₀
  a := a
  r := r
  ε := 2 ^ (-52 : ℤ)
  ext := b.opts.use_ext_col
  pred := b.opts.modern_pred

/-- The tolerances of the user `atol`, `rtol` and `fnewt` are real numbers, and so is `theta`. -/
structure UserTol (o : Opts X) (atol rtol φ θ₀ : ℝ) : Prop where
  abstol : o.abstol = fin atol
  reltol : o.reltol = fin rtol
  fnewt : o.fnewt = fin φ
  theta : o.theta = fin θ₀
  a0 : 0 < atol
  r0 : 0 < rtol

variable {b : Builder X n P} {f : ℝ → (_root_.Fin n → ℝ) → _root_.Fin n → ℝ}
  {jac : ℝ → (_root_.Fin n → ℝ) → _root_.Fin n → _root_.Fin n → ℝ} {u0 : _root_.Fin n → ℝ} {C : Clock} {s0 s s' : St X n P} {k : ℕ}
  {atol rtol φ₀ θ₀ a r φ : ℝ}

/-- The tolerances are determined by those of the user. -/
theorem tolerances_exist (b : Builder X n P) (f : ℝ → (_root_.Fin n → ℝ) → _root_.Fin n → ℝ)
    (jac : ℝ → (_root_.Fin n → ℝ) → _root_.Fin n → _root_.Fin n → ℝ) (C : Clock) (θ₀ atol rtol φ₀ : ℝ) :
    ∃ a r φ, (problemOf b f jac C θ₀ a r φ).Tolerances atol rtol φ₀ := by
  let r : ℝ := 0.1 * rtol ^ (2 / 3 : ℝ)
  let φ : ℝ := if φ₀ ≤ 0 then max (10 * 2 ^ (-52 : ℤ) / r) (min 0.03 √r) else φ₀
  exact ⟨r * (atol / rtol), r, φ, rfl, rfl, rfl⟩

theorem UserTol.r_pos (H : UserTol b.opts atol rtol φ₀ θ₀)
    (hT : (problemOf b f jac C θ₀ a r φ).Tolerances atol rtol φ₀) : 0 < r := by
  have := hT.r
  change r = _ at this
  rw [this]
  have := Real.rpow_pos_of_pos H.r0 (2 / 3)
  positivity

theorem UserTol.coded (H : UserTol b.opts atol rtol φ₀ θ₀) (hn : n ≠ 0)
    (hT : (problemOf b f jac C θ₀ a r φ).Tolerances atol rtol φ₀) : Coded (problemOf b f jac C θ₀ a r φ) := by
  have hr := H.r_pos hT
  have e0 : (0 : ℝ) < 2 ^ (-52 : ℤ) := by positivity
  refine ⟨rfl, rfl, rfl, e0, hn, ?_, hr.le, ?_⟩
  · have := hT.a
    change a = r * _ at this
    change 0 < a
    rw [this]
    exact mul_pos hr (div_pos H.a0 H.r0)
  · have := hT.φ
    change φ = if φ₀ ≤ 0 then max (10 * 2 ^ (-52 : ℤ) / r) _ else φ₀ at this
    change φ ≠ 0
    rw [this]
    split
    · exact (lt_max_of_lt_left (by positivity)).ne'
    · rename_i h
      exact (not_le.1 h).ne'

theorem UserTol.par (H : UserTol b.opts atol rtol φ₀ θ₀)
    (hT : (problemOf b f jac C θ₀ a r φ).Tolerances atol rtol φ₀) : Par (problemOf b f jac C θ₀ a r φ) (adjustOpts b.opts) := by
  have hr := H.r_pos hT
  have e1 : (adjustOpts b.opts).reltol = fin r := by
    change (0.1 : X) * Fl.powf b.opts.reltol (2.0 / 3.0) = _
    rw [H.reltol, show (2.0 : X) = fin 2.0 from rfl, show (3.0 : X) = fin 3.0 from rfl, div_fin (by norm_num),
      powf_fin H.r0, show (0.1 : X) = fin 0.1 from rfl, mul_fin, fin_inj]
    have := hT.r
    change r = _ at this
    rw [this, show (2.0 / 3.0 : ℝ) = 2 / 3 by norm_num]
  have e2 : (adjustOpts b.opts).abstol = fin a := by
    change (adjustOpts b.opts).reltol * (b.opts.abstol / b.opts.reltol) = _
    rw [e1, H.abstol, H.reltol, div_fin H.r0.ne', mul_fin]
    exact congrArg fin hT.a.symm
  have e3 : (adjustOpts b.opts).fnewt = fin φ := by
    change (if Fl.le b.opts.fnewt 0.0 then Fl.max (10.0 * Fl.eps / (adjustOpts b.opts).reltol)
      (Fl.min 0.03 (Fl.sqrt (adjustOpts b.opts).reltol)) else b.opts.fnewt) = _
    have := hT.φ
    change φ = if φ₀ ≤ 0 then max (10 * 2 ^ (-52 : ℤ) / r) (min 0.03 √r) else φ₀ at this
    rw [e1, H.fnewt, show (0.0 : X) = fin 0.0 from rfl, le_fin, this, show (10.0 : X) = fin 10.0 from rfl, eps_fin, mul_fin,
      div_fin hr.ne', sqrt_fin hr.le, show (0.03 : X) = fin 0.03 from rfl, min_fin, max_fin]
    have z : (0.0 : ℝ) = 0 := by norm_num
    have z1 : (10.0 : ℝ) = 10 := by norm_num
    rw [z, z1]
    by_cases h : φ₀ ≤ 0
    · rw [if_pos h, if_pos (by simpa using h)]
      rfl
    · rw [if_neg h, if_neg (by simpa using h)]
  exact ⟨rfl, e3, H.theta, e2, e1, rfl, rfl⟩

/-- After `build()`. -/
theorem Sim.build (R : RealProblem b f jac u0) (T : Timed C b)
    (hc : ∀ t u, Spec.FirstNotEigen (C.Sane ∧ C.t0 ≤ C.tf) (jac t u)) (H : UserTol b.opts atol rtol φ₀ θ₀)
    (hT : (problemOf b f jac C θ₀ a r φ).Tolerances atol rtol φ₀) (hb : b.build alg = .ok s0) :
    Sim (problemOf b f jac C θ₀ a r φ) ⊤ u0 (C.Sane ∧ C.t0 ≤ C.tf) (init (problemOf b f jac C θ₀ a r φ) C.t0 1e-6 u0) s0 := by
  have P' := H.par hT
  have I := R.idle (V := ⊤) T ⟨fun _ _ _ => trivial, fun t u _ => ⟨fun _ _ => trivial,
    fun lam h1 h2 h3 => hc t u h3 lam h1 h2⟩⟩ hb
  have K := T.knows hb
  have e0 : s0.opts = adjustOpts b.opts := by rw [← Res.ok.inj hb]
  have e4 : s0.cache.decompose = true := by rw [← Res.ok.inj hb]
  have e5 : s0.cache.first = true := by rw [← Res.ok.inj hb]
  have e6 : s0.u = b.u := by rw [← Res.ok.inj hb]
  have e7 : s0.cache.u0 = b.dudt b.params (fun _ => 0.0) b.u b.t := by rw [← Res.ok.inj hb]
  have e8 : s0.cache.dfdu = (jacobian_u b.dudt b.dfdu (fun _ _ => 0.0) b.u b.t b.params).1 := by rw [← Res.ok.inj hb]
  have e9 : s0.cache.scal = fun i => s0.opts.abstol + s0.opts.reltol * Fl.abs (s0.u i) := by rw [← Res.ok.inj hb]
  have e10 : s0.cache.caljac = false := by rw [← Res.ok.inj hb]
  have e11 : s0.cache.faccon = 1.0 := by rw [← Res.ok.inj hb]
  have e12 : s0.cache.last = false := by rw [← Res.ok.inj hb]
  have e13 : s0.stats.accepts = 0 := by rw [← Res.ok.inj hb]; rfl
  have hI := T.idle hb
  refine ⟨⟨hI.time, e6.trans R.u, ?_, ?_, e0 ▸ P', e10, e5, K.cfac, by rw [e13]; rfl, (fun p hp => by cases hp)⟩, I.num, hI, build_ready hb,
    ?_, ?_, e4, (fun h => by cases h), e12⟩
  · rw [e7, R.u, T.t, R.rhs]; rfl
  · rw [e9, e0, P'.a, P'.r, e6, R.u]; rfl
  · rw [e11, X.sci]
    change fin _ = fin 1
    norm_num
  · rw [e8, R.u, T.t, R.jacs]; rfl

theorem Sim.run (R : RealProblem b f jac u0) (T : Timed C b) (hn : n ≠ 0)
    (hc : ∀ t u, Spec.FirstNotEigen (C.Sane ∧ C.t0 ≤ C.tf) (jac t u)) (H : UserTol b.opts atol rtol φ₀ θ₀)
    (hT : (problemOf b f jac C θ₀ a r φ).Tolerances atol rtol φ₀) (hb : b.build alg = .ok s0)
    (hs : SomeSteps alg none k s0 s) :
    ∃ σ, Reach (problemOf b f jac C θ₀ a r φ) (init (problemOf b f jac C θ₀ a r φ) C.t0 1e-6 u0) k σ ∧
      Sim (problemOf b f jac C θ₀ a r φ) ⊤ u0 (C.Sane ∧ C.t0 ≤ C.tf) σ s := by
  refine SomeSteps.induct (alg := Radau.alg) (I := fun k s => ∃ σ, Reach (problemOf b f jac C θ₀ a r φ)
    (init (problemOf b f jac C θ₀ a r φ) C.t0 1e-6 u0) k σ ∧
      Sim (problemOf b f jac C θ₀ a r φ) ⊤ u0 (C.Sane ∧ C.t0 ≤ C.tf) σ s) ?_ ?_ hs
  · exact ⟨_, .zero, .build R T hc H hT hb⟩
  · rintro k s o s' ⟨σ, hσ, S⟩ h1
    obtain ⟨⟨fuel, h1⟩, ho⟩ := stepReturns_none_iff.1 h1
    have hc' : s'.sol.retcode = .Continue := by
      by_contra hc
      simp [hc] at ho
    obtain ⟨σ', hst, S'⟩ := (S.step (H.coded hn hT) h1 (.inl hc')).1 hc'
    exact ⟨σ', .succ hσ hst, S'⟩

end Radau

variable {n : ℕ} {P : Type} {b : Builder X n P} {f : ℝ → (Fin n → ℝ) → Fin n → ℝ}
  {jac : ℝ → (Fin n → ℝ) → Fin n → Fin n → ℝ} {u0 : Fin n → ℝ} {C : Radau.Clock} {s0 s s' : Radau.St X n P} {k : ℕ}
  {atol rtol φ₀ θ₀ a r φ : ℝ}

/-- **C80** After `k` calls of `step()` that returned `Some` the time, the state, the next step size and the Jacobian of
`Radau5` are those of a state which the textbook algorithm reaches in `k` steps. -/
theorem C80_algorithm_radau (R : Radau.RealProblem b f jac u0) (T : Radau.Timed C b) (hn : n ≠ 0)
    (hc : ∀ t u, Spec.FirstNotEigen (C.Sane ∧ C.t0 ≤ C.tf) (jac t u)) (H : Radau.UserTol b.opts atol rtol φ₀ θ₀)
    (hT : (Radau.problemOf b f jac C θ₀ a r φ).Tolerances atol rtol φ₀) (hb : b.build Radau.alg = .ok s0)
    (hs : SomeSteps Radau.alg none k s0 s) :
    ∃ σ, Reach (Radau.problemOf b f jac C θ₀ a r φ) (init (Radau.problemOf b f jac C θ₀ a r φ) C.t0 1e-6 u0) k σ ∧
      s.t = fin σ.t ∧ s.u = fv σ.u ∧ s.dt = fin σ.h ∧ s.cache.dfdu = fun i j => fin (σ.J i j) := by
  obtain ⟨σ, h1, h2⟩ := Radau.Sim.run R T hn hc H hT hb hs
  exact ⟨σ, h1, h2.base.time, h2.base.state, h2.idle.step, h2.dfdu⟩

/-- **C80** If `integrate()` ends with `Success`, the final time and state are the result of the last step of the textbook
algorithm from a state that it reaches in finitely many steps. -/
theorem C80_success_radau (R : Radau.RealProblem b f jac u0) (T : Radau.Timed C b) (hn : n ≠ 0)
    (hc : ∀ t u, Spec.FirstNotEigen (C.Sane ∧ C.t0 ≤ C.tf) (jac t u)) (H : Radau.UserTol b.opts atol rtol φ₀ θ₀)
    (hT : (Radau.problemOf b f jac C θ₀ a r φ).Tolerances atol rtol φ₀) (hb : b.build Radau.alg = .ok s0)
    (hs : IntegrateReturns Radau.alg none s0 s) (ha : s.sol.retcode = .Success) :
    ∃ k σ t u, Reach (Radau.problemOf b f jac C θ₀ a r φ) (init (Radau.problemOf b f jac C θ₀ a r φ) C.t0 1e-6 u0) k σ ∧
      Finish (Radau.problemOf b f jac C θ₀ a r φ) σ t u ∧ s.t = fin t ∧ s.u = fv u := by
  obtain ⟨k, s1, hs, h⟩ := (integrate_iff Radau.fuelMono).1 hs
  obtain ⟨⟨fuel, h⟩, -⟩ := stepReturns_none_iff.1 h
  obtain ⟨σ, h1, h2⟩ := Radau.Sim.run R T hn hc H hT hb hs
  obtain ⟨t, u, h3⟩ := (h2.step (H.coded hn hT) h (.inr ha)).2 ha
  exact ⟨k, σ, t, u, h1, h3⟩

theorem code_nodes : Function.Injective (Fin.cons 0 Radau.codeC : Fin 4 → ℝ) := by
  have e : (Fin.cons 0 Radau.codeC : Fin 4 → ℝ) = ![0, Radau.C1, Radau.C2, 1] := by
    funext j
    fin_cases j <;> rfl
  rw [e]
  intro a b h
  fin_cases a <;> fin_cases b <;> first | rfl | (exfalso; revert h; norm_num [Radau.C1, Radau.C2])

/-- **C80** The textbook algorithm is deterministic: the state after `k` steps, the number of steps to the end and the result
are determined by the problem. -/
theorem C80_deterministic {σ₁ σ₂ : State n} {k₁ k₂ : ℕ} {h₀ t₁ t₂ : ℝ}
    {u₁ u₂ : Fin n → ℝ} (h1 : Reach (Radau.problemOf b f jac C θ₀ a r φ) (init (Radau.problemOf b f jac C θ₀ a r φ) C.t0 h₀ u0) k₁ σ₁)
    (h2 : Reach (Radau.problemOf b f jac C θ₀ a r φ) (init (Radau.problemOf b f jac C θ₀ a r φ) C.t0 h₀ u0) k₂ σ₂) :
    (k₁ = k₂ → σ₁ = σ₂) ∧ (Finish (Radau.problemOf b f jac C θ₀ a r φ) σ₁ t₁ u₁ →
      Finish (Radau.problemOf b f jac C θ₀ a r φ) σ₂ t₂ u₂ → k₁ = k₂ ∧ t₁ = t₂ ∧ u₁ = u₂) := by
  have h0 : (init (Radau.problemOf b f jac C θ₀ a r φ) C.t0 h₀ u0).Sound := fun p hp => by cases hp
  refine ⟨?_, fun F1 F2 => Reach.finish_unique code_nodes h0 h1 F1 h2 F2⟩
  rintro rfl
  exact Reach.unique code_nodes h0 h1 h2

/-- **C80** So every point a run of `Radau5` visits is the point the algorithm prescribes. -/
theorem C80_follows_radau (R : Radau.RealProblem b f jac u0) (T : Radau.Timed C b) (hn : n ≠ 0)
    (hc : ∀ t u, Spec.FirstNotEigen (C.Sane ∧ C.t0 ≤ C.tf) (jac t u)) (H : Radau.UserTol b.opts atol rtol φ₀ θ₀)
    (hT : (Radau.problemOf b f jac C θ₀ a r φ).Tolerances atol rtol φ₀) (hb : b.build Radau.alg = .ok s0)
    (hs : SomeSteps Radau.alg none k s0 s) {σ : State n}
    (hσ : Reach (Radau.problemOf b f jac C θ₀ a r φ) (init (Radau.problemOf b f jac C θ₀ a r φ) C.t0 1e-6 u0) k σ) :
    s.t = fin σ.t ∧ s.u = fv σ.u ∧ s.dt = fin σ.h ∧ s.cache.dfdu = fun i j => fin (σ.J i j) := by
  obtain ⟨σ', h1, h2⟩ := C80_algorithm_radau R T hn hc H hT hb hs
  obtain rfl := (C80_deterministic hσ h1 (t₁ := 0) (t₂ := 0) (u₁ := 0) (u₂ := 0)).1 rfl
  exact h2

/-- A run of two steps with the default options meets the hypotheses. -/
example : ∃ (A : Problem 2) (s0 s1 s2 : Radau.St X 2 Unit) (σ σ1 : State 2) (t : ℝ) (u : Fin 2 → ℝ),
    (Radau.constBuilder ![1, -1] ![0, 3] 0 1.1e-6).build Radau.alg = .ok s0 ∧
    SomeSteps Radau.alg none 1 s0 s1 ∧ IntegrateReturns Radau.alg none s0 s2 ∧
    Step A (init A 0 1e-6 ![0, 3]) σ1 ∧ s1.t = fin σ1.t ∧ Finish A σ t u ∧ s2.t = fin t ∧ s2.u = fv u := by
  obtain ⟨s0, s1, s2, hb, hs, -, -, hi, -, -, c2⟩ := const_runs ![1, -1] (by simp [Fin.forall_fin_two]) ![0, 3]
  have R := Radau.const_problem ![1, -1] ![0, 3] 0 1.1e-6
  have T := Radau.const_timed ![1, -1] ![0, 3] 0 1.1e-6
  have H : Radau.UserTol (Radau.constBuilder ![1, -1] ![0, 3] 0 1.1e-6).opts 1e-7 1e-3 0.0 0.001 :=
    ⟨rfl, rfl, rfl, rfl, by norm_num, by norm_num⟩
  obtain ⟨a, r, φ, hT⟩ := Radau.tolerances_exist (Radau.constBuilder ![1, -1] ![0, 3] 0 1.1e-6) (fun _ _ => ![1, -1])
    (fun _ _ _ _ => 0) (Radau.defaultClock 0 1.1e-6 none) 0.001 1e-7 1e-3 0.0
  obtain ⟨σ1, h1, h2, -⟩ := C80_algorithm_radau R T two_ne_zero (jac_const_ok ![1, -1] ![0, 3] _) H hT hb hs
  obtain ⟨k, σ, t, u, -, h3⟩ := C80_success_radau R T two_ne_zero (jac_const_ok ![1, -1] ![0, 3] _) H hT hb hi c2
  cases h1 with
  | succ h0 hst =>
    cases h0 with
    | zero => exact ⟨_, s0, s1, s2, σ, σ1, t, u, hb, hs, hi, hst, h2, h3⟩

end
end Cyphus
