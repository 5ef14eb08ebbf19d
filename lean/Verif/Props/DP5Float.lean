import Verif.Props.DP5Exact
/-!
# C15, C16 in any arithmetic: what one recorded step of `DormandPrince5` is

Level G: nothing is assumed about the arithmetic, so the statements hold for IEEE doubles with rounding.
-/

namespace Cyphus
set_option linter.unusedSectionVars false
set_option autoImplicit false
open DP5
variable {F : Type} {n : Nat} {P : Type}
  [Add F] [Sub F] [Mul F] [Div F] [Neg F] [OfScientific F] [Fl F] [FlInf F]

/-- A Dormand-Prince step of size `h` from `(t, u)` for `u' = f(u, t)` as a floating-point program: the seven stages,
the result, and the scaled error, every operation being the one of the arithmetic `F`. The first stage is the
derivative *at `(t, u)`*. -/
def FloatStep (f : Vec n F → F → Vec n F) (abstol reltol t : F) (u : Vec n F) (h : F) (u' : Vec n F) (err : F) : Prop :=
  ∃ k1 k2 k3 k4 k5 k6 k7 : Vec n F,
    k1 = f u t ∧
    k2 = f (fun i => u i + h * 0.2 * k1 i) (t + 0.2 * h) ∧
    k3 = f (fun i => u i + h * (3.0 / 40.0 * k1 i + 9.0 / 40.0 * k2 i)) (t + 0.3 * h) ∧
    k4 = f (fun i => u i + h * (44.0 / 45.0 * k1 i + -56.0 / 15.0 * k2 i + 32.0 / 9.0 * k3 i)) (t + 0.8 * h) ∧
    k5 = f (fun i => u i + h * (19372.0 / 6561.0 * k1 i + -25360.0 / 2187.0 * k2 i + 64448.0 / 6561.0 * k3 i
      + -212.0 / 729.0 * k4 i)) (t + 8.0 / 9.0 * h) ∧
    k6 = f (fun i => u i + h * (9017.0 / 3168.0 * k1 i + -355.0 / 33.0 * k2 i + 46732.0 / 5247.0 * k3 i
      + 49.0 / 176.0 * k4 i + -5103.0 / 18656.0 * k5 i)) (t + h) ∧
    u' = (fun i => u i + h * (35.0 / 384.0 * k1 i + 500.0 / 1113.0 * k3 i + 125.0 / 192.0 * k4 i
      + -2187.0 / 6784.0 * k5 i + 11.0 / 84.0 * k6 i)) ∧
    k7 = f u' (t + h) ∧
    err = Fl.sqrt (sumLoop n 0.0 (fun i =>
      let e := h * (71.0 / 57600.0 * k1 i + -71.0 / 16695.0 * k3 i + 71.0 / 1920.0 * k4 i + -17253.0 / 339200.0 * k5 i
        + 22.0 / 525.0 * k6 i + -1.0 / 40.0 * k7 i) / (abstol + reltol * Fl.max (Fl.abs (u i)) (Fl.abs (u' i)))
      e * e) / Fl.ofNat n)

/-- The user's right-hand side does not look at the previous contents of its output buffer (for instance because it
overwrites all of it). -/
def IgnoresBuffer (f : Rhs F n P) : Prop := ∀ p b b' u t, f p b u t = f p b' u t

namespace DP5

/-- The stored derivative is the one at the current point. -/
structure Fsal (b : Builder F n P) (s : St F n P) : Prop where
  dudt : s.dudt = b.dudt
  params : s.params = b.params
  opts : s.opts = b.opts
  du : s.cache.du = b.dudt b.params s.u s.u s.t

theorem Rejs.du {k : Nat} {s s' : St F n P} (h : Rejs k s s') : s'.cache.du = s.cache.du := by
  induction h with
  | zero => rfl
  | succ _ _ ih => rw [ih, retry_du]

theorem floatStep_of {b : Builder F n P} (hi : IgnoresBuffer b.dudt) {s : St F n P} (h1 : s.dudt = b.dudt)
    (h2 : s.params = b.params) (h3 : s.opts = b.opts) (h4 : s.cache.du = b.dudt b.params s.u s.u s.t) :
    FloatStep (fun u t => b.dudt b.params u u t) b.opts.abstol b.opts.reltol s.t s.u s.dt
      (compute_stages s).cache.unew (errOf s) ∧
    (compute_stages s).cache.dunew =
      b.dudt b.params (compute_stages s).cache.unew (compute_stages s).cache.unew (s.t + s.dt) := by
  rw [← h1, ← h2] at h4 ⊢
  rw [← h1] at hi
  constructor
  · refine ⟨s.cache.du, (compute_stages s).cache.k2, (compute_stages s).cache.k3, (compute_stages s).cache.k4,
      (compute_stages s).cache.k5, (compute_stages s).cache.k6, (compute_stages s).cache.dunew, h4, ?_, ?_, ?_, ?_, ?_, rfl,
      ?_, ?_⟩
    · exact hi _ _ _ _ _
    · exact hi _ _ _ _ _
    · exact hi _ _ _ _ _
    · exact hi _ _ _ _ _
    · exact hi _ _ _ _ _
    · exact hi _ _ _ _ _
    · rw [← h3]; rfl
  · exact hi _ _ _ _ _

theorem Fsal.step {b : Builder F n P} (hi : IgnoresBuffer b.dudt) {s s' : St F n P} (I : Fsal b s) {fuel : Nat}
    (h : DP5.step fuel s = .ok s') : Fsal b s' ∧ ∃ h err,
      FloatStep (fun u t => b.dudt b.params u u t) b.opts.abstol b.opts.reltol s.t s.u h s'.u err ∧
      Fl.le err 1.0 = true ∧ s'.t = s.t + h ∧ s'.dtprev = h := by
  obtain ⟨k, s1, -, hr, he, -, rfl, -⟩ := step_spec h
  have F := (Frame.clampLast s).trans hr.frame
  have hd : s1.cache.du = s.cache.du := by
    rw [hr.du]; unfold DP5.clampLast; split <;> rfl
  obtain ⟨a, c⟩ := floatStep_of hi (s := s1) (F.dudt.trans I.dudt) (F.params.trans I.params) (F.opts.trans I.opts)
    (by rw [hd, F.u, F.t, I.du])
  rw [F.t, F.u] at a
  refine ⟨⟨?_, ?_, ?_, ?_⟩, s1.dt, errOf s1, ?_, he, ?_, ?_⟩
  · simp [F.dudt, I.dudt]
  · simp [F.params, I.params]
  · simp [F.opts, I.opts]
  · simp only [finishStep_cache, accepted_du, finishStep_u, finishStep_t, accepted_u, accepted_t]; exact c
  · simpa using a
  · simp [F.t]
  · simp

theorem Fsal.run {b : Builder F n P} (hi : IgnoresBuffer b.dudt) {s0 s : St F n P} (hb : b.build DP5.alg = .ok s0)
    {k : Nat} (hs : Steps DP5.alg none k s0 s) : Fsal b s := by
  refine Steps.induct (alg := DP5.alg) (I := fun _ s => Fsal b s) ?_ ?_ hs
  · have := (Res.ok.inj hb).symm
    subst this
    exact ⟨rfl, rfl, rfl, hi _ _ _ _ _⟩
  · intro k s s' o I h
    obtain ⟨⟨fuel, h⟩, -⟩ := stepReturns_none_iff.1 h
    exact (I.step hi h).1

end DP5

/-- **C15** (any arithmetic) Without callback and for a right-hand side that ignores the old contents of its buffer,
every `step()` of every history is exactly one floating-point Dormand-Prince step from the current point: the reused
last stage always equals the derivative at the current point, whatever pattern of rejections happened. -/
theorem C15_float_step_dp5 (b : Builder F n P) (hi : IgnoresBuffer b.dudt) (s0 s s' : DP5.St F n P)
    (hb : b.build DP5.alg = .ok s0) (k : Nat) (hs : Steps DP5.alg none k s0 s) (o : Option Nat)
    (h : StepReturns DP5.alg none s o s') :
    ∃ h err, FloatStep (fun u t => b.dudt b.params u u t) b.opts.abstol b.opts.reltol s.t s.u h s'.u err ∧
      s'.t = s.t + h ∧ s'.dtprev = h := by
  obtain ⟨⟨fuel, h⟩, -⟩ := stepReturns_none_iff.1 h
  obtain ⟨-, h, err, h1, -, h3, h4⟩ := (DP5.Fsal.run hi hb hs).step hi h
  exact ⟨h, err, h1, h3, h4⟩

/-- **C16** (any arithmetic) The floating-point error estimate of every accepted step passed the comparison `<= 1.0`;
in particular it was not NaN. -/
theorem C16_float_step_dp5 (b : Builder F n P) (hi : IgnoresBuffer b.dudt) (s0 s s' : DP5.St F n P)
    (hb : b.build DP5.alg = .ok s0) (k : Nat) (hs : Steps DP5.alg none k s0 s) (o : Option Nat)
    (h : StepReturns DP5.alg none s o s') (err : F)
    (he : FloatStep (fun u t => b.dudt b.params u u t) b.opts.abstol b.opts.reltol s.t s.u s'.dtprev s'.u err) :
    Fl.le err 1.0 = true := by
  obtain ⟨⟨fuel, h⟩, -⟩ := stepReturns_none_iff.1 h
  obtain ⟨-, h, err', h1, h2, -, rfl⟩ := (DP5.Fsal.run hi hb hs).step hi h
  have : err = err' := by
    obtain ⟨k1, k2, k3, k4, k5, k6, k7, a1, a2, a3, a4, a5, a6, a7, a8, a9⟩ := he
    obtain ⟨l1, l2, l3, l4, l5, l6, l7, b1, b2, b3, b4, b5, b6, b7, b8, b9⟩ := h1
    obtain rfl : k1 = l1 := a1.trans b1.symm
    obtain rfl : k2 = l2 := a2.trans b2.symm
    obtain rfl : k3 = l3 := a3.trans b3.symm
    obtain rfl : k4 = l4 := a4.trans b4.symm
    obtain rfl : k5 = l5 := a5.trans b5.symm
    obtain rfl : k6 = l6 := a6.trans b6.symm
    obtain rfl : k7 = l7 := a8.trans b8.symm
    exact a9.trans b9.symm
  rw [this]; exact h2

/-- The hypotheses are met by the sample run of C05 (two steps, the second one after an accepted step). -/
example : ∃ s0 s1 s2 : DP5.St X 1 Unit, (DP5.sampleBuilder 1.1e-6).build DP5.alg = .ok s0 ∧
    IgnoresBuffer (DP5.sampleBuilder 1.1e-6).dudt ∧ Steps DP5.alg none 1 s0 s1 ∧
    StepReturns DP5.alg none s1 none s2 := by
  obtain ⟨s0, s1, s2, hb, h1, h2, hc, -, -, ht⟩ := DP5.sample_run
  exact ⟨s0, s1, s2, hb, fun _ _ _ _ _ => rfl, .succ (.zero _) h1, h2⟩

end Cyphus
