import Verif.Proofs.UnitsDouble
import Verif.Spec.Units
import Verif.Props.RadauSingular
/-!
# C84: the results do not depend on the units of the state

Level X: real numbers, infinities and NaN; double precision for a change of sign. No callback.
-/

namespace Cyphus
open X
set_option autoImplicit false
set_option linter.unusedSectionVars false

/-! ### Whole runs of an algorithm whose `step` commutes with `T` -/

section
variable {F : Type} {n : ℕ} {P : Type} {alg : Algorithm F n P} {U : Integ F n P alg.Cache → Prop}
  {T : Integ F n P alg.Cache → Integ F n P alg.Cache}

theorem CmR.step (hl : ∀ fuel, CmR U T (alg.step fuel)) (hT : ∀ s, (T s).sol.retcode = s.sol.retcode)
    (hc : ∀ s, (T s).stats = s.stats) {s s' : Integ F n P alg.Cache} {fuel : ℕ} {o : Option ℕ}
    (h : Integ.step alg none fuel s = .ok (s', o)) (H : U s) : U s' ∧ Integ.step alg none fuel (T s) = .ok (T s', o) := by
  unfold Integ.step at h ⊢
  cases e : alg.step fuel s with
  | ok r =>
    rw [e] at h
    simp only [Res.bind, Res.ok.injEq, Prod.mk.injEq] at h
    obtain ⟨rfl, h⟩ := h
    refine ⟨(hl fuel).kept _ _ e H, ?_⟩
    rw [(hl fuel).comm _ _ e H]
    simp only [Res.bind, ← h, hT, hc]
  | panic => rw [e] at h; cases h
  | timeout => rw [e] at h; cases h

theorem CmR.steps (hl : ∀ fuel, CmR U T (alg.step fuel)) (hT : ∀ s, (T s).sol.retcode = s.sol.retcode)
    (hc : ∀ s, (T s).stats = s.stats) {k : ℕ} {s s' : Integ F n P alg.Cache} (h : Steps alg none k s s') (H : U s) :
    U s' ∧ Steps alg none k (T s) (T s') := by
  induction k generalizing s' with
  | zero => cases Steps.zero_eq rfl h; exact ⟨H, .zero _⟩
  | succ k ih =>
    obtain ⟨s1, o, h1, fuel, h2⟩ := Steps.cases_snoc h
    obtain ⟨k1, c1⟩ := ih h1
    obtain ⟨k2, c2⟩ := CmR.step hl hT hc h2 k1
    exact ⟨k2, .succ (alg := alg) c1 ⟨fuel, c2⟩⟩

theorem CmR.integrate (hl : ∀ fuel, CmR U T (alg.step fuel)) (hT : ∀ s, (T s).sol.retcode = s.sol.retcode)
    (hc : ∀ s, (T s).stats = s.stats) (fuel : ℕ) : ∀ {s s' : Integ F n P alg.Cache},
    Integ.integrate alg none fuel s = .ok s' → U s → Integ.integrate alg none fuel (T s) = .ok (T s') := by
  induction fuel with
  | zero => intro s s' h; cases h
  | succ fuel ih =>
    intro s s' h H
    unfold Integ.integrate at h
    cases e : Integ.step alg none (fuel + 1) s with
    | ok r =>
      obtain ⟨r, o⟩ := r
      obtain ⟨k1, c1⟩ := CmR.step hl hT hc e H
      rw [e] at h
      cases o with
      | none =>
        simp only [Res.bind, Res.ok.injEq] at h
        subst h
        unfold Integ.integrate
        rw [c1]
        rfl
      | some i =>
        simp only [Res.bind] at h
        unfold Integ.integrate
        rw [c1]
        exact ih h k1
    | panic => rw [e] at h; cases h
    | timeout => rw [e] at h; cases h

end

namespace Radau

section
variable {F : Type} {n : ℕ} {P : Type} [Add F] [Sub F] [Mul F] [Div F] [Neg F] [OfScientific F] [Fl F] [FlInf F]
variable {q : UnitPar F n P}

theorem step_cm (S : Scaling q.c q.k) (fuel : ℕ) : CmR (Units q) (sc q) (step (F := F) (n := n) (P := P) fuel) :=
  ⟨fun s s' e H => ((step_eqv S fuel).kept s s' e).units H, (step_eqv S fuel).comm⟩

theorem dense_output_sc (S : Scaling q.c q.k) (s : St F n P) (t : F) : dense_output (sc q s) t = mulV q.c (dense_output s t) := by
  funext i
  simp only [dense_output, sc, mulV, S.mul, S.add]

/-- `build()` in other units. -/
theorem build_sc (S : Scaling q.c q.k) {b : Builder F n P} {s0 : St F n P}
    (hg : ∀ buf u t, q.g b.params (mulV q.c buf) (mulV q.c u) t = mulV q.c (b.dudt b.params buf u t))
    (hj : ∃ f f', b.dfdu = some f ∧ q.j = some f' ∧ ∀ buf u t, f' b.params buf (mulV q.c u) t = f b.params buf u t)
    (hb : b.build alg = .ok s0) :
    Units q s0 ∧ Builder.build alg { b with
      dudt := q.g, dfdu := q.j, u := mulV q.c b.u, opts := { b.opts with abstol := q.k * b.opts.abstol } } = .ok (sc q s0) := by
  have e := (Res.ok.inj hb).symm
  subst e
  refine ⟨⟨hg, hj⟩, ?_⟩
  obtain ⟨f, f', h1, h2, h3⟩ := hj
  have z : mulV q.c (fun _ => 0.0 : Vec n F) = fun _ => 0.0 := mulV_zero S
  have hg' := hg (fun _ => 0.0) b.u b.t
  rw [z] at hg'
  have ho : adjustOpts { b.opts with abstol := q.k * b.opts.abstol } = { adjustOpts b.opts with abstol := q.k * (adjustOpts b.opts).abstol } := by
    simp only [adjustOpts, S.kdiv, S.kmul]
  have hs : (fun i => q.k * (adjustOpts b.opts).abstol + (adjustOpts b.opts).reltol * Fl.abs (mulV q.c b.u i))
      = mulV q.k fun i => (adjustOpts b.opts).abstol + (adjustOpts b.opts).reltol * Fl.abs (b.u i) :=
    funext fun i => by simp only [mulV, S.abs, S.kmul, S.kadd]
  simp only [Builder.build, new_cache, Res.bind, sc]
  rw [ho]
  simp only [hg', hs, z, jacobian_u, h1, h2, h3]
  rfl

end
end Radau

section
variable {F : Type} {n : ℕ} {P : Type} [Add F] [Sub F] [Mul F] [Div F] [Neg F] [OfScientific F] [Fl F]

/-- What users see, including the dense output, changed by `T`. -/
def DP5.SeenAll (T : Vec n F → Vec n F) (s s' : DP5.St F n P) : Prop :=
  Spec.Seen T s s' ∧ ∀ t dt, DP5.dense_output s' t dt = T (DP5.dense_output s t dt)

/-- What users see, including the dense output, changed by `T`. -/
def Radau.SeenAll (T : Vec n F → Vec n F) (s s' : Radau.St F n P) : Prop :=
  Spec.Seen T s s' ∧ ∀ t, Radau.dense_output s' t = T (Radau.dense_output s t)

variable [FlInf F]

theorem units_dp5 {q : DP5.UnitPar F n P} (S : Scaling2 q.c q.k q.m) {b b' : Builder F n P} (hg : b'.dudt = q.g) (hj : b'.dfdu = q.j)
    (H : Spec.Changed (mulV q.c) (q.k * b.opts.abstol) b b') {s0 : DP5.St F n P} (hb : b.build DP5.alg = .ok s0) :
    ∃ s0', b'.build DP5.alg = .ok s0' ∧
      (∀ k s, Steps DP5.alg none k s0 s → ∃ s', Steps DP5.alg none k s0' s' ∧ DP5.SeenAll (mulV q.c) s s') ∧
      ∀ s, IntegrateReturns DP5.alg none s0 s → ∃ s', IntegrateReturns DP5.alg none s0' s' ∧ DP5.SeenAll (mulV q.c) s s' := by
  have hr := H.rhs
  have ho := H.other
  rw [hg] at hr
  rw [hg, hj] at ho
  obtain ⟨hu, hb'⟩ := DP5.build_sc (q := q) S.toScaling hr hb
  have e (s : DP5.St F n P) : DP5.SeenAll (mulV q.c) s (DP5.sc q s) := ⟨⟨rfl, rfl, rfl, rfl, rfl, rfl, rfl⟩, DP5.dense_output_sc S.toScaling s⟩
  refine ⟨DP5.sc q s0, ?_, fun k s h => ⟨_, (CmR.steps (alg := DP5.alg) (DP5.step_cm S) (fun _ => rfl) (fun _ => rfl) h hu).2, e s⟩, ?_⟩
  · rw [ho]; exact hb'
  · rintro s ⟨fuel, h⟩
    exact ⟨_, ⟨fuel, CmR.integrate (alg := DP5.alg) (DP5.step_cm S) (fun _ => rfl) (fun _ => rfl) fuel h hu⟩, e s⟩

theorem units_radau {q : Radau.UnitPar F n P} (S : Scaling q.c q.k) {b b' : Builder F n P} (hg : b'.dudt = q.g) (hj : b'.dfdu = q.j)
    (H : Spec.Changed (mulV q.c) (q.k * b.opts.abstol) b b') (J : Spec.SameJac (mulV q.c) b b') {s0 : Radau.St F n P} (hb : b.build Radau.alg = .ok s0) :
    ∃ s0', b'.build Radau.alg = .ok s0' ∧
      (∀ k s, Steps Radau.alg none k s0 s → ∃ s', Steps Radau.alg none k s0' s' ∧ Radau.SeenAll (mulV q.c) s s') ∧
      ∀ s, IntegrateReturns Radau.alg none s0 s → ∃ s', IntegrateReturns Radau.alg none s0' s' ∧ Radau.SeenAll (mulV q.c) s s' := by
  have hr := H.rhs
  have ho := H.other
  unfold Spec.SameJac at J
  rw [hj] at J
  rw [hg] at hr
  rw [hg, hj] at ho
  obtain ⟨hu, hb'⟩ := Radau.build_sc (q := q) S hr J hb
  have e (s : Radau.St F n P) : Radau.SeenAll (mulV q.c) s (Radau.sc q s) := ⟨⟨rfl, rfl, rfl, rfl, rfl, rfl, rfl⟩, Radau.dense_output_sc S s⟩
  refine ⟨Radau.sc q s0, ?_, fun k s h => ⟨_, (CmR.steps (alg := Radau.alg) (Radau.step_cm S) (fun _ => rfl) (fun _ => rfl) h hu).2, e s⟩, ?_⟩
  · rw [ho]; exact hb'
  · rintro s ⟨fuel, h⟩
    exact ⟨_, ⟨fuel, CmR.integrate (alg := Radau.alg) (Radau.step_cm S) (fun _ => rfl) (fun _ => rfl) fuel h hu⟩, e s⟩

end

section
variable {n : ℕ} {P : Type} {b b' : Builder X n P} {c : ℝ}

/-- **C84** `DormandPrince5`: multiply the problem by `c ≠ 0`, together with `abstol`. Then the same number of `step()` calls, and `integrate()`,
give the same result in other units. -/
theorem C84_units_dp5 (hc : c ≠ 0) (H : Spec.Changed (Spec.units c) (fin |c| * b.opts.abstol) b b') {s0 : DP5.St X n P}
    (hb : b.build DP5.alg = .ok s0) :
    ∃ s0', b'.build DP5.alg = .ok s0' ∧
      (∀ k s, Steps DP5.alg none k s0 s → ∃ s', Steps DP5.alg none k s0' s' ∧ DP5.SeenAll (Spec.units c) s s') ∧
      ∀ s, IntegrateReturns DP5.alg none s0 s → ∃ s', IntegrateReturns DP5.alg none s0' s' ∧ DP5.SeenAll (Spec.units c) s s' := by
  exact units_dp5 (q := ⟨fin c, fin |c|, fin (c * c), b'.dudt, b'.dfdu⟩) (X.scaling2 hc) rfl rfl H hb

/-- **C84** `Radau5`: multiply the problem by `c ≠ 0`, together with `abstol`. Then the same number of `step()` calls, and `integrate()`,
give the same result in other units. -/
theorem C84_units_radau (hc : c ≠ 0) (H : Spec.Changed (Spec.units c) (fin |c| * b.opts.abstol) b b') (J : Spec.SameJac (Spec.units c) b b') {s0 : Radau.St X n P}
    (hb : b.build Radau.alg = .ok s0) :
    ∃ s0', b'.build Radau.alg = .ok s0' ∧
      (∀ k s, Steps Radau.alg none k s0 s → ∃ s', Steps Radau.alg none k s0' s' ∧ Radau.SeenAll (Spec.units c) s s') ∧
      ∀ s, IntegrateReturns Radau.alg none s0 s → ∃ s', IntegrateReturns Radau.alg none s0' s' ∧ Radau.SeenAll (Spec.units c) s s' := by
  exact units_radau (q := ⟨fin c, fin |c|, b'.dudt, b'.dfdu⟩) (X.scaling hc) rfl rfl H J hb

end

section
variable {n : ℕ} {P : Type} {b b' : Builder B64 n P}

/-- **C84** In double precision, changing the sign of the states of a `DormandPrince5` problem changes nothing but this sign. -/
theorem C84_sign_double_dp5 (H : Spec.Changed Spec.mirror b.opts.abstol b b') {s0 : DP5.St B64 n P}
    (hb : b.build DP5.alg = .ok s0) :
    ∃ s0', b'.build DP5.alg = .ok s0' ∧
      (∀ k s, Steps DP5.alg none k s0 s → ∃ s', Steps DP5.alg none k s0' s' ∧ DP5.SeenAll Spec.mirror s s') ∧
      ∀ s, IntegrateReturns DP5.alg none s0 s → ∃ s', IntegrateReturns DP5.alg none s0' s' ∧ DP5.SeenAll Spec.mirror s s' := by
  have hm : (Spec.mirror : Vec n B64 → Vec n B64) = mulV (-1.0) := funext fun u => funext fun i => (B64.neg_one_mul' _).symm
  have e1 : (1.0 : B64) * b.opts.abstol = b.opts.abstol := B64.one_mul' _
  rw [hm] at H ⊢
  rw [← e1] at H
  exact units_dp5 (q := ⟨-1.0, 1.0, 1.0, b'.dudt, b'.dfdu⟩) B64.scaling2_sign rfl rfl H hb

/-- **C84** In double precision, changing the sign of the states of a `Radau5` problem changes nothing but this sign. -/
theorem C84_sign_double_radau (H : Spec.Changed Spec.mirror b.opts.abstol b b') (J : Spec.SameJac Spec.mirror b b') {s0 : Radau.St B64 n P}
    (hb : b.build Radau.alg = .ok s0) :
    ∃ s0', b'.build Radau.alg = .ok s0' ∧
      (∀ k s, Steps Radau.alg none k s0 s → ∃ s', Steps Radau.alg none k s0' s' ∧ Radau.SeenAll Spec.mirror s s') ∧
      ∀ s, IntegrateReturns Radau.alg none s0 s → ∃ s', IntegrateReturns Radau.alg none s0' s' ∧ Radau.SeenAll Spec.mirror s s' := by
  have hm : (Spec.mirror : Vec n B64 → Vec n B64) = mulV (-1.0) := funext fun u => funext fun i => (B64.neg_one_mul' _).symm
  have e1 : (1.0 : B64) * b.opts.abstol = b.opts.abstol := B64.one_mul' _
  rw [hm] at H J ⊢
  rw [← e1] at H
  exact units_radau (q := ⟨-1.0, 1.0, b'.dudt, b'.dfdu⟩) B64.scaling_sign rfl rfl H J hb

end

/-- The oscillator of C83, measured downwards in millimetres instead of upwards in metres. -/
noncomputable def oscInMm : Builder X 2 Unit := { oscBuilder with
  u := Spec.units (-1000) oscBuilder.u, opts := { oscBuilder.opts with abstol := fin |(-1000 : ℝ)| * oscBuilder.opts.abstol } }

theorem oscInMm_units : Spec.Changed (Spec.units (-1000)) (fin |(-1000 : ℝ)| * oscBuilder.opts.abstol) oscBuilder oscInMm where
  rhs buf u t := by
    have S := X.scaling (c := -1000) (by norm_num)
    change ![fin (-1000) * u 1, -(fin (-1000) * u 0)] = fun i => fin (-1000) * (![u 1, -(u 0)] : Vec 2 X) i
    funext i
    fin_cases i
    · rfl
    · exact S.neg _
  other := rfl

/-- Both runs end, and in the same way. -/
example : ∃ s0 s s0' s' : Radau.St X 2 Unit, oscBuilder.build Radau.alg = .ok s0 ∧ IntegrateReturns Radau.alg none s0 s ∧
    oscInMm.build Radau.alg = .ok s0' ∧ IntegrateReturns Radau.alg none s0' s' ∧ s'.sol.retcode = s.sol.retcode ∧
    s'.u = fun i => fin (-1000) * s.u i := by
  obtain ⟨s0, hb⟩ : ∃ s0 : Radau.St X 2 Unit, oscBuilder.build Radau.alg = .ok s0 := ⟨_, rfl⟩
  obtain ⟨s, hs⟩ := C12_integrate_terminates_radau two_ne_zero s0
  obtain ⟨s0', hb', -, h⟩ := C84_units_radau (by norm_num) oscInMm_units ⟨_, _, rfl, rfl, fun _ _ _ => rfl⟩ hb
  obtain ⟨s', hs', e⟩ := h s ⟨_, hs⟩
  exact ⟨s0, s, s0', s', hb, ⟨_, hs⟩, hb', hs', e.1.retcode, e.1.u⟩

/-- `u' = -u` in double precision, from `u₀`, with the Jacobian of the user. -/
noncomputable def relax64 (u0 : B64) : Builder B64 1 Unit :=
  (Builder.default Radau.alg (fun _ _ u _ => fun i => -(u i)) (fun _ => u0) (0.0, 1.0) ()).set (.dfdu fun _ _ _ _ => fun _ _ => -1.0)

/-- The solution from `-u₀` is the solution from `u₀` with the other sign. -/
example (u0 : B64) : ∃ s0 s s0' s' : Radau.St B64 1 Unit, (relax64 u0).build Radau.alg = .ok s0 ∧ IntegrateReturns Radau.alg none s0 s ∧
    (relax64 (-u0)).build Radau.alg = .ok s0' ∧ IntegrateReturns Radau.alg none s0' s' ∧ s'.sol.retcode = s.sol.retcode ∧
    s'.u = fun i => -s.u i := by
  obtain ⟨s0, hb⟩ : ∃ s0 : Radau.St B64 1 Unit, (relax64 u0).build Radau.alg = .ok s0 := ⟨_, rfl⟩
  obtain ⟨s, hs⟩ := C12_integrate_terminates_radau one_ne_zero s0
  obtain ⟨s0', hb', -, h⟩ := C84_sign_double_radau (b' := relax64 (-u0)) ⟨fun _ _ _ => rfl, rfl⟩ ⟨_, _, rfl, rfl, fun _ _ _ => rfl⟩ hb
  obtain ⟨s', hs', e⟩ := h s ⟨_, hs⟩
  exact ⟨s0, s, s0', s', hb, ⟨_, hs⟩, hb', hs', e.1.retcode, e.1.u⟩

/-- `DormandPrince5`, `u' = 1`: the run of two steps in `sample_run`, in other units. -/
example : ∃ s0 s s0' s' : DP5.St X 1 Unit, (DP5.sampleBuilder 1.1e-6).build DP5.alg = .ok s0 ∧ Steps DP5.alg none 2 s0 s ∧
    Builder.build DP5.alg { DP5.sampleBuilder 1.1e-6 with
      dudt := DP5.constRhs fun _ => -1000, opts := { DP5.default_opts with abstol := fin 1000 * 1e-7 } } = .ok s0' ∧
    Steps DP5.alg none 2 s0' s' ∧ s'.sol.retcode = .Success ∧ s'.t = fin 1.1e-6 := by
  obtain ⟨s0, s1, s2, hb, h1, h2, hc, -, -, ht⟩ := DP5.sample_run
  have H : Spec.Changed (Spec.units (-1000)) (fin |(-1000 : ℝ)| * (DP5.sampleBuilder 1.1e-6).opts.abstol) (DP5.sampleBuilder 1.1e-6)
      { DP5.sampleBuilder 1.1e-6 with
        dudt := DP5.constRhs fun _ => -1000, opts := { DP5.default_opts with abstol := fin 1000 * 1e-7 } } := by
    constructor
    · intro buf u t
      funext i
      change fin (-1000) = fin (-1000) * fin 1
      simp
    · have e : (DP5.sampleBuilder 1.1e-6).u = Spec.units (-1000) (DP5.sampleBuilder 1.1e-6).u := by
        funext i
        change fin 0 = fin (-1000) * fin 0
        simp
      rw [← e, show |(-1000 : ℝ)| = 1000 by norm_num]
      rfl
  obtain ⟨s0', hb', h, -⟩ := C84_units_dp5 (by norm_num) H hb
  have hs : Steps DP5.alg none 2 s0 s2 := .succ (alg := DP5.alg) (.succ (alg := DP5.alg) (.zero _) h1) h2
  obtain ⟨s', hs', e⟩ := h 2 s2 hs
  exact ⟨s0, s2, s0', s', hb, hs, hb', hs', by rw [e.1.retcode, hc], by rw [e.1.t, ht]⟩

/-- `DormandPrince5` in double precision, `u' = -u` again. -/
example (u0 : B64) : ∃ s0 s0' : DP5.St B64 1 Unit,
    (Builder.default DP5.alg (fun _ _ u _ => fun i => -(u i)) (fun _ => u0) (0.0, 1.0) ()).build DP5.alg = .ok s0 ∧
    (Builder.default DP5.alg (fun _ _ u _ => fun i => -(u i)) (fun _ => -u0) (0.0, 1.0) ()).build DP5.alg = .ok s0' ∧
    ∀ s, IntegrateReturns DP5.alg none s0 s → ∃ s', IntegrateReturns DP5.alg none s0' s' ∧ s'.u = fun i => -s.u i := by
  obtain ⟨s0, hb⟩ : ∃ s0 : DP5.St B64 1 Unit,
    (Builder.default DP5.alg (fun _ _ u _ => fun i => -(u i)) (fun _ => u0) (0.0, 1.0) ()).build DP5.alg = .ok s0 := ⟨_, rfl⟩
  obtain ⟨s0', hb', -, h⟩ := C84_sign_double_dp5
    (b' := Builder.default DP5.alg (fun _ _ u _ => fun i => -(u i)) (fun _ => -u0) (0.0, 1.0) ()) ⟨fun _ _ _ => rfl, rfl⟩ hb
  exact ⟨s0, s0', hb, hb', fun s hs => let ⟨s', hs', e⟩ := h s hs; ⟨s', hs', e.1.u⟩⟩

end Cyphus
