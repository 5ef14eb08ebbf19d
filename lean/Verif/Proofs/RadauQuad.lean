import Verif.Props.RadauStep
/-!
# `Radau5` for right-hand sides which do not depend on the state

The Newton iteration converges in at most two passes. Used for sample runs.
-/

namespace Cyphus
open X
set_option autoImplicit false
set_option linter.unusedSectionVars false

namespace Radau
noncomputable section
variable {n : ℕ} {P : Type} {E : NEnv n} {fwd : Prop} {s : St X n P} {t h hf : ℝ}

/-- `Λ x = 0` only for `x = 0`. -/
theorem lam_inj {x : _root_.Fin 3 → ℝ} (h : ∀ k, ∑ l, codeTransform.Lam k l * x l = 0) : x = 0 := by
  have hU : (U1 : ℝ) ≠ 0 := U1_pos.ne'
  have hD := code_ne.2
  have h0 := h 0
  have h1 := h 1
  have h2 := h 2
  simp [Fin.sum_univ_three, Spec.Transform.Lam] at h0 h1 h2
  have e0 : x 0 = 0 := h0.resolve_left hU
  have e1 : (codeTransform.α ^ 2 + codeTransform.β ^ 2) * x 1 = 0 := by
    linear_combination codeTransform.α * h1 + codeTransform.β * h2
  have e2 : (codeTransform.α ^ 2 + codeTransform.β ^ 2) * x 2 = 0 := by
    linear_combination codeTransform.α * h2 - codeTransform.β * h1
  funext k
  fin_cases k
  · exact e0
  · exact (mul_eq_zero.1 e1).resolve_left hD
  · exact (mul_eq_zero.1 e2).resolve_left hD

theorem solved_fields (s : St X n P) : (solved s).opts = s.opts ∧ (solved s).t = s.t ∧ (solved s).dt = s.dt ∧
    (solved s).cache.scal = s.cache.scal ∧ facsOf (solved s) = facsOf s ∧ (solved s).cache.newt = s.cache.newt + 1 ∧
    (solved s).cache.theta = s.cache.theta ∧ (solved s).cache.f1 = s.cache.f1 ∧ (solved s).cache.f2 = s.cache.f2 ∧
    (solved s).cache.f3 = s.cache.f3 :=
  ⟨rfl, rfl, rfl, rfl, rfl, rfl, rfl, rfl, rfl, rfl⟩

theorem update_fields (s : St X n P) : (newtonUpdate s).opts = s.opts ∧ (newtonUpdate s).t = s.t ∧
    (newtonUpdate s).dt = s.dt ∧ (newtonUpdate s).cache.scal = s.cache.scal ∧ facsOf (newtonUpdate s) = facsOf s ∧
    (newtonUpdate s).cache.newt = s.cache.newt ∧ (newtonUpdate s).cache.theta = s.cache.theta ∧
    (newtonUpdate s).cache.faccon = s.cache.faccon ∧ Linked (newtonUpdate s) ∧
    (newtonUpdate s).cache.f1 = (fun i => s.cache.f1 i + s.cache.z1 i) ∧
    (newtonUpdate s).cache.f2 = (fun i => s.cache.f2 i + s.cache.z2 i) ∧
    (newtonUpdate s).cache.f3 = (fun i => s.cache.f3 i + s.cache.z3 i) :=
  ⟨rfl, rfl, rfl, rfl, rfl, rfl, rfl, rfl, .inr (.inr ⟨rfl, rfl, rfl⟩), rfl, rfl, rfl⟩

theorem newtonLoop_pass {s' : St X n P} {d : X} (fuel : ℕ) (h1 : s.cache.newt < s.opts.max_newt_iter)
    (h2 : newtonCheck (solved s) (newtonNorm (solved s)) d = (s', false)) :
    newtonLoop (fuel + 1) s d = if Fl.le (s'.cache.faccon * newtonNorm (solved s)) s'.opts.fnewt then
      .ok (newtonUpdate s', true) else newtonLoop fuel (newtonUpdate s') (Fl.max (newtonNorm (solved s)) Fl.eps) := by
  rw [newtonLoop, if_neg (by omega)]
  change (if (newtonCheck (solved s) (newtonNorm (solved s)) d).2 then _ else _) = _
  rw [h2, if_neg Bool.false_ne_true]
  change (if Fl.le ((newtonUpdate (newtonCheck (solved s) (newtonNorm (solved s)) d).1).cache.faccon * newtonNorm (solved s))
    (newtonUpdate (newtonCheck (solved s) (newtonNorm (solved s)) d).1).opts.fnewt then
      Res.ok (newtonUpdate (newtonCheck (solved s) (newtonNorm (solved s)) d).1, true) else
        newtonLoop fuel (newtonUpdate (newtonCheck (solved s) (newtonNorm (solved s)) d).1) _) = _
  rw [h2]
  rfl

/-- The Newton iteration converges. -/
theorem quad_newton {a r φ : ℝ} {u : _root_.Fin n → ℝ} (hn : n ≠ 0) (hq : ∀ t u, E.f t u = E.f t 0) (H : Num E fwd s)
    (G : Good hf (fun _ _ => 0) (facsOf s)) (hJ : JOk E fwd fun _ _ => 0) (ht : s.t = fin t) (hh : s.dt = fin h)
    (a0 : 0 < a) (r0 : 0 ≤ r)
    (hs : s.cache.scal = fun i => fin a + fin r * Fl.abs (fin (u i))) (hφ : s.opts.fnewt = fin φ) (φ0 : 0 < φ)
    (hm : 3 ≤ s.opts.max_newt_iter) :
    ∃ s', newton s = .ok (s', true) ∧ s'.cache.newt ≤ 2 ∧
      (s'.cache.theta = Fl.abs s.opts.theta ∨ s'.cache.theta = fin 0) := by
  obtain ⟨m, hm⟩ := Nat.exists_eq_add_of_le hm
  have H1 := H.init hh
  set s1 := newtonInit s with hs1
  have o1 : s1.opts = s.opts := (Frame.newtonInit s).opts
  have t1 : s1.t = fin t := (Frame.newtonInit s).t.trans ht
  have c1 : s1.cache.scal = s.cache.scal := (Frame.newtonInit s).scal
  have x1 : s1.dt = fin h ∧ facsOf s1 = facsOf s ∧ s1.cache.newt = 0 ∧ s1.cache.theta = Fl.abs s.opts.theta ∧ Linked s1 := by
    rw [← hh]
    simp only [hs1, newtonInit, prepare_newton]
    split
    · exact ⟨rfl, rfl, by trivial, by trivial, .inl ⟨rfl, rfl, rfl, rfl, rfl, rfl⟩⟩
    · exact ⟨rfl, rfl, by trivial, by trivial, .inr (.inl ⟨rfl, rfl, rfl⟩)⟩
  obtain ⟨h1, G1, n1, th1, L1⟩ := x1
  rw [← G1] at G
  obtain ⟨u1, g, y, Δ, z, -, -, d1, d2, d3, N, f1, f2, f3, -⟩ := H1.pass G t1 h1 L1
  have hc0 : newtonCheck (solved s1) (newtonNorm (solved s1)) 0.0 = (solved s1, false) := by
    have : (solved s1).cache.newt = 1 := by
      change s1.cache.newt + 1 = 1
      rw [n1]
    simp only [newtonCheck, this]
    rw [if_neg (by omega)]
  rw [newton_eq, hm, ← hs1]
  clear_value s1
  obtain ⟨a1, a2, a3, a4, a5, a6, a7, -, -, -⟩ := solved_fields s1
  obtain ⟨b1, b2, b3, b4, b5, b6, b7, -, b8, b9, b10, b11⟩ := update_fields (solved s1)
  rw [show 3 + m + 1 = (m + 2) + 1 + 1 by omega, newtonLoop_pass _ (by rw [n1, o1, hm]; omega) hc0]
  split
  · refine ⟨_, rfl, ?_, .inl (by rw [b7, a7, th1])⟩
    rw [b6, a6, n1]; omega
  · have H2 : Num E fwd (newtonUpdate (solved s1)) := ((H1.rhs t1 h1).solve (hf := hf) (J := fun _ _ => 0) G hJ).upd
    have hnu := And.intro b9 (And.intro b10 b11)
    generalize newtonUpdate (solved s1) = s2 at *
    have n2 : s2.cache.newt = 1 := by rw [b6, a6, n1]
    have o2 : s2.opts = s.opts := by rw [b1, a1, o1]
    have c2 : s2.cache.scal = s.cache.scal := by rw [b4, a4, c1]
    obtain ⟨u2, g', y', Δ', z', -, -, d1', d2', d3', N', f1', f2', f3', -⟩ := H2.pass (hf := hf) (J := fun _ _ => 0) (t := t)
      (h := h) (by rw [b5, a5]; exact G) (by rw [b2, a2, t1]) (by rw [b3, a3, h1]) b8
    obtain ⟨A1, A2, A3, A4, A5, A6, A7, -, -, -⟩ := solved_fields s2
    have hg : ∀ k i, g' k i = g k i + Δ k i := by
      rw [show (solved s1).cache.f1 = s1.cache.f1 from rfl, show (solved s1).cache.f2 = s1.cache.f2 from rfl,
        show (solved s1).cache.f3 = s1.cache.f3 from rfl, f1, f2, f3, d1, d2, d3, f1', f2', f3'] at hnu
      obtain ⟨e1, e2, e3⟩ := hnu
      intro k i
      fin_cases k
      · exact fin_inj.1 (congrFun e1 i)
      · exact fin_inj.1 (congrFun e2 i)
      · exact fin_inj.1 (congrFun e3 i)
    have hΔ : ∀ k i, Δ' k i = 0 := by
      intro k i
      refine congrFun (lam_inj (x := fun k => Δ' k i) fun k => ?_) k
      have e1 := N.system k i
      have e2 := N'.system k i
      simp only [zero_mul, Finset.sum_const_zero, mul_zero, sub_zero] at e1 e2
      have hF : ∀ l, E.f (t + codeC l * h) (u1 + y l) i = E.f (t + codeC l * h) (u2 + y' l) i := by
        intro l; rw [hq, hq _ (u2 + y' l)]
      simp only [hF] at e1
      rw [← e1] at e2
      simp only [hg, mul_add, Finset.sum_add_distrib] at e2
      linarith
    have hdyn : newtonNorm (solved s2) = fin 0 := by
      rw [newtonNorm_fin (s := solved s2) (u := u) (Δ := Δ') a0 r0 hn (by rw [A4, c2, hs]) d1' d2' d3']
      simp [Spec.newtonNorm, hΔ]
    obtain ⟨dy, hdy, hdp⟩ : ∃ d, Fl.max (newtonNorm (solved s1)) (Fl.eps : X) = fin d ∧ d ≠ 0 := by
      rw [newtonNorm_fin (s := solved s1) (u := u) (Δ := Δ) a0 r0 hn (by rw [a4, c1, hs]) d1 d2 d3, eps_fin, max_fin]
      exact ⟨_, rfl, (lt_of_lt_of_le RealFl.eps_pos (le_max_right _ _)).ne'⟩
    have hnt : (solved s2).cache.newt = 2 := by rw [A6, n2]
    have hom : (solved s2).opts.max_newt_iter = 3 + m := by rw [A1, o2, hm]
    have hof : (solved s2).opts.fnewt = fin φ := by rw [A1, o2, hφ]
    have hz0 : (0 : ℝ) / dy = 0 := zero_div _
    have hc : ∃ s3, newtonCheck (solved s2) (newtonNorm (solved s2)) (fin dy) = (s3, false) ∧ s3.cache.faccon = fin 0 ∧
        s3.cache.theta = fin 0 ∧ s3.cache.newt = 2 ∧ s3.opts.fnewt = fin φ := by
      have hth : newTheta (solved s2) (fin 0 / fin dy) = fin 0 := by
        rw [newTheta, if_pos hnt, div_fin hdp, hz0]
      have h1 : Fl.lt (fin 0 : X) 0.99 = true := by
        rw [show (0.99 : X) = fin 0.99 from rfl, lt_fin]; norm_num
      have hfac : (fin 0 : X) / (1.0 - fin 0) = fin 0 := by
        rw [show (1.0 : X) = fin 1.0 from rfl, sub_fin, div_fin (by norm_num)]; norm_num
      have hdyth : (fin 0 : X) * fin 0 * Fl.powi (fin 0) ((3 + m - 1 - 2 : ℕ) : ℤ) / fin φ = fin 0 := by
        rw [powi_fin, mul_fin, mul_fin, div_fin φ0.ne']; simp
        exact Or.inr (Nat.cast_nonneg _)
      have h2 : Fl.ge (fin 0 : X) 1.0 = false := by
        rw [show (1.0 : X) = fin 1.0 from rfl, ge_fin]; norm_num
      refine ⟨{ solved s2 with cache := { (solved s2).cache with theta := fin 0, thqold := fin 0 / fin dy, faccon := fin 0 } },
        ?_, rfl, rfl, hnt, hof⟩
      simp only [newtonCheck, hnt, hom, hof, hdyn]
      rw [if_pos (by omega), hth, if_pos h1, hfac, hdyth, h2]
      rfl
    obtain ⟨s3, hc, q1, q2, q3, q4⟩ := hc
    obtain ⟨-, -, -, -, -, B6, B7, -⟩ := update_fields s3
    rw [hdy, newtonLoop_pass _ (by rw [n2, o2, hm]; omega) hc, if_pos]
    · exact ⟨_, rfl, by rw [B6, q3], .inr (by rw [B7, q2])⟩
    · rw [q1, q4, hdyn, mul_fin, le_fin]
      simpa using φ0.le

/-- The increments, if the Jacobian is zero. -/
def quadZ (f : ℝ → (_root_.Fin n → ℝ) → _root_.Fin n → ℝ) (t h hf : ℝ) (k : _root_.Fin 3) (i : _root_.Fin n) : ℝ :=
  hf * ∑ l, codeTransform.A k l * f (t + codeC l * h) 0 i

/-- The error estimate, if the Jacobian is zero. -/
def quadErr (f : ℝ → (_root_.Fin n → ℝ) → _root_.Fin n → ℝ) (t h hf : ℝ) (i : _root_.Fin n) : ℝ :=
  hf / U1 * (f t 0 i + (∑ k, Spec.radauE k * quadZ f t h hf k i) / h)

/-- What a successful attempt from the state `s1` after the decompositions looks like. -/
structure QuadHead (E : NEnv n) (C : Clock) (fwd : Prop) (s : St X n P) (t h hf a r φ : ℝ) (u : _root_.Fin n → ℝ) : Prop where
  clk : Clk C fwd s t h
  num : Num E fwd s
  good : Good hf (fun _ _ => 0) (facsOf s)
  jok : JOk E fwd fun _ _ => 0
  ne : h ≠ 0
  state : s.u = fv u
  deriv : s.cache.u0 = fv (E.f t u)
  a0 : 0 < a
  r0 : 0 ≤ r
  scal : s.cache.scal = fun i => fin a + fin r * Fl.abs (fin (u i))
  fnewt : s.opts.fnewt = fin φ
  fnewt_pos : 0 < φ
  max_newt : 3 ≤ s.opts.max_newt_iter

variable {C : Clock} {a r φ : ℝ} {u : _root_.Fin n → ℝ}

theorem QuadHead.tick (H : QuadHead E C fwd s t h hf a r φ u) : QuadHead E C fwd (tick s) t h hf a r φ u where
  clk := ⟨H.clk.ctl, H.clk.tdir, H.clk.tfinal, H.clk.time, H.clk.step, H.clk.dtopt, H.clk.cfac, H.clk.last, H.clk.sane,
    H.clk.pos, H.clk.room, H.clk.dir⟩
  num := { H.num with }
  good := H.good
  jok := H.jok
  ne := H.ne
  state := H.state
  deriv := H.deriv
  a0 := H.a0
  r0 := H.r0
  scal := H.scal
  fnewt := H.fnewt
  fnewt_pos := H.fnewt_pos
  max_newt := H.max_newt

theorem QuadHead.newton (hn : n ≠ 0) (hq : ∀ t u, E.f t u = E.f t 0) (H : QuadHead E C fwd s t h hf a r φ u) :
    ∃ s2, newton s = .ok (s2, true) ∧ s2.cache.newt ≤ 2 ∧ (s2.cache.theta = Fl.abs s.opts.theta ∨ s2.cache.theta = fin 0) ∧
      s2.dt = fin h ∧ s2.cache.z1 = fv (quadZ E.f t h hf 0) ∧ s2.cache.z2 = fv (quadZ E.f t h hf 1) ∧
      s2.cache.z3 = fv (quadZ E.f t h hf 2) ∧ facsOf s2 = facsOf s ∧ Frame s s2 := by
  obtain ⟨s2, h1, h2, h3⟩ := quad_newton hn hq H.num H.good H.jok H.clk.time H.clk.step H.a0 H.r0 H.scal H.fnewt
    H.fnewt_pos H.max_newt
  have hdt : s2.dt = fin h := by
    have := newton_flags h1
    simp at this
    rw [this.2.2]; exact H.clk.step
  obtain ⟨sp, dyn, ⟨⟨⟨cp, np⟩, gp⟩, ef⟩, lp, -, hb, e2, -⟩ :=
    newton_last ((NumN.closed (C := C) H.jok).and (facs_closedN (facsOf s) s.stats.decompositions s.cache.decompose))
      (s := s) ⟨⟨⟨⟨h, H.clk⟩, H.num⟩, H.good⟩, rfl, rfl, rfl⟩ h1
  obtain ⟨h', cp⟩ := cp
  have hdtp : sp.dt = fin h := by
    have := newtonCheck_dt _ _ _ hb
    rw [← hdt, e2]
    exact this.symm
  obtain ⟨v, g, y, Δ, z, hu, hz, d1, d2, d3, pass, -⟩ := np.pass gp cp.time hdtp lp
  have vec := newtonCheck_vec _ _ _ hb
  dsimp only at vec
  obtain ⟨v1, v2, v3, v4, v5, v6⟩ := vec
  obtain ⟨z1, z2, z3⟩ := hz _ ⟨v4, v5, v6, v1, v2, v3⟩
  rw [← e2] at z1 z2 z3
  have hzq : ∀ k, z k = quadZ E.f t h hf k := by
    intro k
    funext i
    rw [pass.stage code_ne.1 code_ne.2]
    simp only [zero_mul, Finset.sum_const_zero, mul_zero, add_zero, quadZ]
    congr 1
    refine Finset.sum_congr rfl fun l _ => ?_
    rw [hq]
  rw [hzq] at z1 z2 z3
  exact ⟨s2, h1, h2, h3, hdt, z1, z2, z3, ((facs_closedN _ _ _).newton ⟨rfl, rfl, rfl⟩ h1).1, Frame.newton h1⟩

/-- If the error estimate is small the attempt is accepted. -/
theorem QuadHead.accept (hn : n ≠ 0) (hq : ∀ t u, E.f t u = E.f t 0) (H : QuadHead E C fwd s t h hf a r φ u)
    (he : Spec.scaledNorm a r u (quadErr E.f t h hf) < 1) :
    ∃ s2, Radau.newton s = .ok (s2, true) ∧ s2.cache.newt ≤ 2 ∧
      (s2.cache.theta = Fl.abs s.opts.theta ∨ s2.cache.theta = fin 0) ∧ s2.dt = fin h ∧ Frame s s2 ∧
      decided s2 = { errFirst s2 with cache := { (errFirst s2).cache with decompose := true } } ∧
      (decided s2).cache.err = fin (max (Spec.scaledNorm a r u (quadErr E.f t h hf)) 1.0e-10) ∧
      Fl.lt (decided s2).cache.err 1.0 = true := by
  obtain ⟨s2, h1, h2, h3, hdt, z1, z2, z3, ef, fr⟩ := H.newton hn hq
  have G : Good hf (fun _ _ => 0) (facsOf s2) := by rw [ef]; exact H.good
  obtain ⟨⟨e, e1, e2⟩, -⟩ := Num.errFirst_real G hdt H.ne z1 z2 z3 (fr.u0.trans H.deriv)
  have hee : e = quadErr E.f t h hf := by
    funext i
    have := e2 i
    have hU : (U1 : ℝ) ≠ 0 := U1_pos.ne'
    have hf0 := G.ne
    simp only [zero_mul, Finset.sum_const_zero, sub_zero] at this
    rw [quadErr, ← hq t u, ← this]
    field_simp
  rw [hee] at e1
  have er1 : (errFirst s2).cache.err = fin (max (Spec.scaledNorm a r u (quadErr E.f t h hf)) 1.0e-10) := by
    change errNorm (errFirst s2) = _
    exact errNorm_fin H.a0 H.r0 hn (fr.scal.trans H.scal) e1
  have hlt : Fl.lt (errFirst s2).cache.err 1.0 = true := by
    rw [er1, show (1.0 : X) = fin 1.0 from rfl, lt_fin]
    refine decide_eq_true (max_lt (by norm_num; exact he) (by norm_num))
  have hd : decided s2 = { errFirst s2 with cache := { (errFirst s2).cache with decompose := true } } := by
    simp only [decided, error_estimate, hlt, if_true]
  exact ⟨s2, h1, h2, h3, hdt, fr, hd, by rw [hd]; exact er1, by rw [hd]; exact hlt⟩

theorem one_attempt {s s1 s2 : St X n P} (hd : decPhase 1 (clampLast s) = .ok (s1, true))
    (hst : ¬ (tick s1).stats.steps ≥ (tick s1).opts.max_steps) (hsm : tooSmall s1 = false)
    (hN : newton (tick s1) = .ok (s2, true)) (he : Fl.lt (decided s2).cache.err 1.0 = true)
    (hr : (acceptStep (decided s2) (stepQuot (decided s2))).cache.reject = false) :
    Radau.step 1 s = .ok (acceptStep (decided s2) (stepQuot (decided s2))) := by
  have hc : control s2 = acceptStep (decided s2) (stepQuot (decided s2)) := by rw [control_eq, if_pos he]
  rw [Radau.step, stepLoop, hd]
  simp only [Res.bind, Bool.not_true, Bool.false_eq_true, if_false]
  rw [if_neg (by exact hst), if_neg (by rw [show Fl.le (0.1 * Fl.abs s1.dt) (Fl.abs s1.t * Fl.eps) = false from hsm]; decide)]
  change Res.bind (newton (tick s1)) _ = _
  rw [hN]
  simp only [Res.bind, Bool.not_true, Bool.false_eq_true, if_false]
  rw [hc, hr]
  rfl

end
end Radau
end Cyphus
