import Verif.Proofs.RadauSymmetry
import Verif.Props.RadauAlgorithm
/-!
# C85: `Radau5` does not depend on the numbering and the signs of the components nor on the origin of time
-/

namespace Cyphus
open X Spec.Radau5
set_option autoImplicit false
set_option linter.unusedSectionVars false
noncomputable section
variable {n : ℕ} {P P' : Type} {b : Builder X n P} {b' : Builder X n P'} {f f' : ℝ → (Fin n → ℝ) → Fin n → ℝ}
  {jac jac' : ℝ → (Fin n → ℝ) → Fin n → Fin n → ℝ} {u0 : Fin n → ℝ} {C : Radau.Clock} {s0 s : Radau.St X n P}
  {s0' s' : Radau.St X n P'} {k : ℕ} {atol rtol φ₀ θ₀ : ℝ} {S : Spec.Coord n}

/-- The builder `b'` describes the problem of `b` in the coordinates `S`: with the same options, the times are those of `b`
plus `S.c`; `f'`, `jac'` and the initial state are those of `b` in the new coordinates. -/
structure MovedProblem (S : Spec.Coord n) (b : Builder X n P) (f : ℝ → (Fin n → ℝ) → Fin n → ℝ)
    (jac : ℝ → (Fin n → ℝ) → Fin n → Fin n → ℝ) (u0 : Fin n → ℝ) (C : Radau.Clock) (b' : Builder X n P')
    (f' : ℝ → (Fin n → ℝ) → Fin n → ℝ) (jac' : ℝ → (Fin n → ℝ) → Fin n → Fin n → ℝ) : Prop where
  problem : Radau.RealProblem b' f' jac' (S.vec u0)
  same : S.Same f f' jac jac'
  t : b'.t = fin (C.t0 + S.c)
  tfinal : b'.tfinal = fin (C.tf + S.c)
  dt : b'.dt = b.dt
  opts : b'.opts = b.opts

theorem MovedProblem.timed (W : MovedProblem S b f jac u0 C b' f' jac') (T : Radau.Timed C b) :
    Radau.Timed { C with t0 := C.t0 + S.c, tf := C.tf + S.c } b' := by
  refine ⟨W.t, W.dt.trans T.dt, W.tfinal, ?_⟩
  rw [W.opts]
  exact ⟨T.ctl.1, T.ctl.2, T.ctl.3, T.ctl.4, T.ctl.5, T.ctl.6, T.ctl.7, T.ctl.8, T.ctl.9, T.ctl.10, T.ctl.11⟩

theorem MovedProblem.moved (W : MovedProblem S b f jac u0 C b' f' jac') (θ₀ a r φ : ℝ) :
    Radau.problemOf b' f' jac' { C with t0 := C.t0 + S.c, tf := C.tf + S.c } θ₀ a r φ =
      (Radau.problemOf b f jac C θ₀ a r φ).moved S f' jac' := by
  unfold Radau.problemOf Problem.moved
  rw [W.opts]

theorem MovedProblem.init (W : MovedProblem S b f jac u0 C b' f' jac') (θ₀ a r φ : ℝ) :
    init (Radau.problemOf b' f' jac' { C with t0 := C.t0 + S.c, tf := C.tf + S.c } θ₀ a r φ) (C.t0 + S.c) 1e-6 (S.vec u0) =
      (init (Radau.problemOf b f jac C θ₀ a r φ) C.t0 1e-6 u0).moved S := by
  rw [W.moved]
  exact moved_init W.same _ _ _

/-- **C85** If a problem is solved forward in time in two coordinate systems which differ by the numbering of the components,
by signs of components and by the origin of time, then after `k` calls of `step()` which returned `Some` the times, the states
and the Jacobians of the two solvers differ in the same way, and the next step sizes are equal. -/
theorem C85_steps_radau (R : Radau.RealProblem b f jac u0) (T : Radau.Timed C b) (hn : n ≠ 0) (hd : C.t0 ≤ C.tf)
    (H : Radau.UserTol b.opts atol rtol φ₀ θ₀) (W : MovedProblem S b f jac u0 C b' f' jac')
    (hc : ∀ t u, Spec.FirstNotEigen C.Sane (jac t u)) (hc' : ∀ t u, Spec.FirstNotEigen C.Sane (jac' t u))
    (hb : b.build Radau.alg = .ok s0) (hb' : b'.build Radau.alg = .ok s0')
    (hs : SomeSteps Radau.alg none k s0 s) (hs' : SomeSteps Radau.alg none k s0' s') :
    ∃ t u h J, s.t = fin t ∧ s.u = fv u ∧ s.dt = fin h ∧ (s.cache.dfdu = fun i j => fin (J i j)) ∧
      s'.t = fin (t + S.c) ∧ s'.u = fv (S.vec u) ∧ s'.dt = fin h ∧ s'.cache.dfdu = fun i j => fin (S.mat J i j) := by
  have d1 : C.d = 1 := by rw [Radau.Clock.d, if_pos (sub_nonneg.2 hd)]
  obtain ⟨a, r, φ, hT⟩ := Radau.tolerances_exist b f jac C θ₀ atol rtol φ₀
  have T' := W.timed T
  have H' : Radau.UserTol b'.opts atol rtol φ₀ θ₀ := by rw [W.opts]; exact H
  have hT' : (Radau.problemOf b' f' jac' { C with t0 := C.t0 + S.c, tf := C.tf + S.c } θ₀ a r φ).Tolerances atol rtol φ₀ :=
    ⟨hT.1, hT.2, hT.3⟩
  obtain ⟨σ, h1, h2, h3, h4, h5⟩ := C80_algorithm_radau R T hn (fun t u h lam a b => hc t u h lam a fun k => b ⟨k, hd⟩) H hT hb hs
  have h1' := h1.moved W.same d1
  rw [← W.init, ← W.moved] at h1'
  obtain ⟨g2, g3, g4, g5⟩ := C80_follows_radau W.problem T' hn
    (fun t u h lam a b => hc' t u h lam a fun k => b ⟨⟨k.1, k.2, k.3⟩, add_le_add_left hd _⟩) H' hT' hb' hs' h1'
  exact ⟨σ.t, σ.u, σ.h, σ.J, h2, h3, h4, h5, g2, g3, g4, g5⟩

/-- **C85** If both integrations end with `Success`, they do so after the same number of steps, and the results differ in the
same way. -/
theorem C85_success_radau (R : Radau.RealProblem b f jac u0) (T : Radau.Timed C b) (hn : n ≠ 0) (hd : C.t0 ≤ C.tf)
    (H : Radau.UserTol b.opts atol rtol φ₀ θ₀) (W : MovedProblem S b f jac u0 C b' f' jac')
    (hc : ∀ t u, Spec.FirstNotEigen C.Sane (jac t u)) (hc' : ∀ t u, Spec.FirstNotEigen C.Sane (jac' t u))
    (hb : b.build Radau.alg = .ok s0) (hb' : b'.build Radau.alg = .ok s0')
    (hs : IntegrateReturns Radau.alg none s0 s) (hs' : IntegrateReturns Radau.alg none s0' s')
    (ha : s.sol.retcode = .Success) (ha' : s'.sol.retcode = .Success) :
    ∃ k t u, (∃ s1, SomeSteps Radau.alg none k s0 s1 ∧ StepReturns Radau.alg none s1 none s) ∧
      (∃ s1, SomeSteps Radau.alg none k s0' s1 ∧ StepReturns Radau.alg none s1 none s') ∧
      s.t = fin t ∧ s.u = fv u ∧ s'.t = fin (t + S.c) ∧ s'.u = fv (S.vec u) := by
  have d1 : C.d = 1 := by rw [Radau.Clock.d, if_pos (sub_nonneg.2 hd)]
  obtain ⟨a, r, φ, hT⟩ := Radau.tolerances_exist b f jac C θ₀ atol rtol φ₀
  have T' := W.timed T
  have H' : Radau.UserTol b'.opts atol rtol φ₀ θ₀ := by rw [W.opts]; exact H
  have hT' : (Radau.problemOf b' f' jac' { C with t0 := C.t0 + S.c, tf := C.tf + S.c } θ₀ a r φ).Tolerances atol rtol φ₀ :=
    ⟨hT.1, hT.2, hT.3⟩
  obtain ⟨k, s1, h1, h2⟩ := (integrate_iff Radau.fuelMono).1 hs
  obtain ⟨k', s1', h1', h2'⟩ := (integrate_iff Radau.fuelMono).1 hs'
  obtain ⟨⟨fuel, g2⟩, -⟩ := stepReturns_none_iff.1 h2
  obtain ⟨⟨fuel', g2'⟩, -⟩ := stepReturns_none_iff.1 h2'
  obtain ⟨σ, r1, r2⟩ := Radau.Sim.run R T hn (fun t u h lam a b => hc t u h lam a fun k => b ⟨k, hd⟩) H hT hb h1
  obtain ⟨σ', r1', r2'⟩ := Radau.Sim.run W.problem T' hn
    (fun t u h lam a b => hc' t u h lam a fun k => b ⟨⟨k.1, k.2, k.3⟩, add_le_add_left hd _⟩) H' hT' hb' h1'
  obtain ⟨t, u, f1, f2, f3⟩ := (r2.step (H.coded hn hT) g2 (.inr ha)).2 ha
  obtain ⟨t', u', f1', f2', f3'⟩ := (r2'.step (H'.coded hn hT') g2' (.inr ha')).2 ha'
  have m1 := r1.moved W.same d1
  have m2 := f1.moved W.same d1
  rw [← W.init] at m1
  rw [← W.moved] at m1 m2
  obtain ⟨rfl, rfl, rfl⟩ := (C80_deterministic (b := b') m1 r1' (t₁ := t + S.c) (u₁ := S.vec u) (t₂ := t') (u₂ := u')).2 m2 f1'
  exact ⟨k, t, u, ⟨s1, h1, h2⟩, ⟨s1', h1', h2'⟩, f2, f3, f2', f3'⟩

/-- **C85** If one integration ends with `Success`, in the call after `k` calls of `step()` which returned `Some`, the other one
does not return `Some` more often. -/
theorem C85_length_radau (R : Radau.RealProblem b f jac u0) (T : Radau.Timed C b) (hn : n ≠ 0) (hd : C.t0 ≤ C.tf)
    (H : Radau.UserTol b.opts atol rtol φ₀ θ₀) (W : MovedProblem S b f jac u0 C b' f' jac')
    (hc : ∀ t u, Spec.FirstNotEigen C.Sane (jac t u)) (hc' : ∀ t u, Spec.FirstNotEigen C.Sane (jac' t u))
    (hb : b.build Radau.alg = .ok s0) (hb' : b'.build Radau.alg = .ok s0') {s1 : Radau.St X n P} {k' : ℕ}
    (hs : SomeSteps Radau.alg none k s0 s1) (hl : StepReturns Radau.alg none s1 none s) (ha : s.sol.retcode = .Success)
    (hs' : SomeSteps Radau.alg none k' s0' s') : k' ≤ k := by
  have d1 : C.d = 1 := by rw [Radau.Clock.d, if_pos (sub_nonneg.2 hd)]
  obtain ⟨a, r, φ, hT⟩ := Radau.tolerances_exist b f jac C θ₀ atol rtol φ₀
  have T' := W.timed T
  have H' : Radau.UserTol b'.opts atol rtol φ₀ θ₀ := by rw [W.opts]; exact H
  have hT' : (Radau.problemOf b' f' jac' { C with t0 := C.t0 + S.c, tf := C.tf + S.c } θ₀ a r φ).Tolerances atol rtol φ₀ :=
    ⟨hT.1, hT.2, hT.3⟩
  obtain ⟨⟨fuel, g2⟩, -⟩ := stepReturns_none_iff.1 hl
  obtain ⟨σ, r1, r2⟩ := Radau.Sim.run R T hn (fun t u h lam a b => hc t u h lam a fun k => b ⟨k, hd⟩) H hT hb hs
  obtain ⟨σ', r1', -⟩ := Radau.Sim.run W.problem T' hn
    (fun t u h lam a b => hc' t u h lam a fun k => b ⟨⟨k.1, k.2, k.3⟩, add_le_add_left hd _⟩) H' hT' hb' hs'
  obtain ⟨t, u, f1, -⟩ := (r2.step (H.coded hn hT) g2 (.inr ha)).2 ha
  have m1 := r1.moved W.same d1
  have m2 := f1.moved W.same d1
  rw [← W.init] at m1
  rw [← W.moved] at m1 m2
  exact Reach.le_finish code_nodes (fun p hp => by cases hp) m1 m2 r1'

/-- **C85** The hypothesis about the Jacobians holds for the difference quotients which are used if the user gives no Jacobian,
if no component changes its sign. -/
theorem C85_difference_quotients (hs : ∀ i, S.sign i = 1) (hf : ∀ t u, f' (t + S.c) (S.vec u) = S.vec (f t u)) :
    S.Same f f' (Spec.fdJacobian f) (Spec.fdJacobian f') := by
  refine ⟨hf, fun t u => ?_⟩
  have e : ∀ i d, Spec.bump (S.vec u) i d = S.vec (Spec.bump u (S.perm i) d) := by
    intro i d
    funext j
    by_cases h : j = i
    · subst h
      simp [Spec.bump, Spec.Coord.vec, hs]
    · simp [Spec.bump, Spec.Coord.vec, hs, h]
  funext i j
  unfold Spec.fdJacobian
  rw [e, hf, hf]
  simp [Spec.Coord.vec, Spec.Coord.mat, hs]

/-! ### A case -/

/-- A run of one step for `u' = v`, starting at `t0`. -/
theorem short_run_radau (hn : n ≠ 0) (v u0 : Fin n → ℝ) (hv : ∀ i, |v i| ≤ 1) (t0 : ℝ) (ht : |t0| ≤ 1) :
    ∃ s0 s : Radau.St X n Unit, (Radau.constBuilder v u0 t0 (t0 + 5e-7)).build Radau.alg = .ok s0 ∧
      IntegrateReturns Radau.alg none s0 s ∧ s.sol.retcode = .Success := by
  obtain ⟨s0, hb⟩ : ∃ s0 : Radau.St X n Unit, (Radau.constBuilder v u0 t0 (t0 + 5e-7)).build Radau.alg = .ok s0 := ⟨_, rfl⟩
  have T := Radau.const_timed v u0 t0 (t0 + 5e-7)
  obtain ⟨φ, Q⟩ := Radau.quad_build (Radau.const_problem v u0 t0 (t0 + 5e-7)) T (Radau.const_tol _ _ _ _)
    (by change 3 ≤ 7; norm_num) hb
  have I := T.idle hb
  have hst : s0.stats.steps = 0 := by rw [← Res.ok.inj hb]; rfl
  have hms : s0.opts.max_steps = 100000 := by rw [← Res.ok.inj hb]; rfl
  have hdec : s0.cache.decompose = true := by rw [← Res.ok.inj hb]
  have hd1 : (Radau.defaultClock t0 (t0 + 5e-7) none).d = 1 := by norm_num [Radau.Clock.d, Radau.defaultClock]
  obtain ⟨cl1, cl2⟩ := I.clamp_yes hd1 (by change (0 : ℝ) ≤ t0 + 1e-6 * 1.0001 - (t0 + 5e-7); linarith)
  obtain ⟨d, s, S1⟩ := Q.go (h := 5e-7) (hf := 5e-7) hn (fun _ _ => rfl) (fun _ _ => rfl) (by rw [hst, hms]; norm_num)
    (by rw [cl1]; change fin (t0 + 5e-7 - t0) = _; rw [add_sub_cancel_left])
    (by
      change |t0| * Fl.eps < 0.1 * |(5e-7 : ℝ)|
      have he : (Fl.eps : ℝ) ≤ 1e-9 := by rw [RealFl.eps_eq]; norm_num
      have he0 := RealFl.eps_pos
      rw [show |(5e-7 : ℝ)| = 5e-7 from abs_of_pos (by norm_num)]
      have : |t0| * Fl.eps ≤ 1 * 1e-9 := mul_le_mul ht he he0.le zero_le_one
      linarith)
    (fun _ => rfl) (fun h => by rw [hdec] at h; simp at h)
    (lt_of_le_of_lt (Radau.const_norm (c := 1e-6) hn hv _ (by norm_num) (by norm_num) (by norm_num) (by norm_num)) (by norm_num))
  have c2 : s.sol.retcode = .Success := by rw [S1.code, cl2]; rfl
  refine ⟨s0, s, hb, (integrate_iff Radau.fuelMono).2 ⟨0, s0, .zero (alg := Radau.alg) s0,
    stepReturns_none_iff.2 ⟨⟨1, S1.step⟩, ?_⟩⟩, c2⟩
  rw [c2]; rfl

/-- The components exchanged, the new first one with the other sign, and the clock set forward by 1. -/
def swapped : Spec.Coord 2 where
  c := 1
  perm := Equiv.swap 0 1
  sign := ![-1, 1]
  unit := by simp [Fin.forall_fin_two]

/-- `u' = (1, -1/2)`, `u 0 = (0, 3)`, and the same in the coordinates `swapped`, `u' = (1/2, 1)`, `u 1 = (-3, 0)`: the two
runs meet the hypotheses. -/
example : ∃ (s0 s s0' s' : Radau.St X 2 Unit) (u : Fin 2 → ℝ),
    (Radau.constBuilder ![1, -1/2] ![0, 3] 0 (0 + 5e-7)).build Radau.alg = .ok s0 ∧
    (Radau.constBuilder ![1/2, 1] ![-3, 0] 1 (1 + 5e-7)).build Radau.alg = .ok s0' ∧
    IntegrateReturns Radau.alg none s0 s ∧ IntegrateReturns Radau.alg none s0' s' ∧ s.u = fv u ∧ s'.u = fv ![-u 1, u 0] := by
  obtain ⟨s0, s, hb, hi, hc⟩ := short_run_radau two_ne_zero ![1, -1/2] ![0, 3] (by norm_num [Fin.forall_fin_two, abs_div]) 0 (by norm_num)
  obtain ⟨s0', s', hb', hi', hc'⟩ := short_run_radau two_ne_zero ![1/2, 1] ![-3, 0] (by norm_num [Fin.forall_fin_two, abs_div]) 1
    (by norm_num)
  have e : ∀ x y : ℝ, swapped.vec ![x, y] = ![-y, x] := by
    intro x y
    funext i
    fin_cases i <;> simp [Spec.Coord.vec, swapped]
  have R' := Radau.const_problem ![1/2, 1] ![-3, 0] 1 (1 + 5e-7)
  have W : MovedProblem swapped (Radau.constBuilder ![1, -1/2] ![0, 3] 0 (0 + 5e-7)) (fun _ _ => ![1, -1/2]) (fun _ _ _ _ => 0) ![0, 3]
      (Radau.defaultClock 0 (0 + 5e-7) none) (Radau.constBuilder ![1/2, 1] ![-3, 0] 1 (1 + 5e-7)) (fun _ _ => ![1/2, 1])
      (fun _ _ _ _ => 0) := by
    refine ⟨by rw [e]; exact R', ⟨fun _ _ => ?_, fun _ _ => ?_⟩, ?_, ?_, rfl, rfl⟩
    · rw [e]
      norm_num
    · funext i j
      simp [Spec.Coord.mat]
    · change fin 1 = fin (0 + 1)
      norm_num
    · change fin (1 + 5e-7) = fin (0 + 5e-7 + 1)
      norm_num
  obtain ⟨k, t, u, -, -, -, h1, -, h2⟩ := C85_success_radau (Radau.const_problem _ _ _ _) (Radau.const_timed _ _ _ _) two_ne_zero
    (by norm_num [Radau.defaultClock]) (atol := 1e-7) (rtol := 1e-3) (φ₀ := 0.0) (θ₀ := 0.001)
    ⟨rfl, rfl, rfl, rfl, by norm_num, by norm_num⟩ W (jac_const_ok ![1, -1/2] ![0, 3] _) (jac_const_ok ![1/2, 1] ![-3, 0] _)
    hb hb' hi hi' hc hc'
  refine ⟨s0, s, s0', s', u, hb, hb', hi, hi', h1, ?_⟩
  rw [h2, ← e (u 0) (u 1)]
  congr 2
  funext i
  fin_cases i <;> rfl

end
end Cyphus
