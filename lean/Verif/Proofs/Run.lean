import Verif.Ode.Run
import Verif.Proofs.DP5
import Verif.Proofs.RadauLoop
/-!
# Lemmas about histories of `step()` calls, for any algorithm
-/

namespace Cyphus
set_option linter.unusedSectionVars false
variable {F : Type} {n : Nat} {P : Type}

/-- More fuel does not change the result of a `step` that returns. -/
def FuelMono (alg : Algorithm F n P) : Prop :=
  ∀ f g s s', f ≤ g → alg.step f s = .ok s' → alg.step g s = .ok s'

section
variable {alg : Algorithm F n P} {cb : Option (Callback alg)}

theorem integ_step_ok {fuel : Nat} {s s' : Integ F n P alg.Cache} {o : Option Nat} :
    Integ.step alg cb fuel s = .ok (s', o) ↔ ∃ s1, alg.step fuel s = .ok s1 ∧
      s' = (match cb with | some f => applyCallback alg f s1 | none => s1) ∧
      o = if s'.sol.retcode = .Continue then some s'.stats.steps else none := by
  unfold Integ.step
  rw [Res.bind_eq_ok]
  constructor
  · rintro ⟨s1, h1, h2⟩
    simp only [Res.ok.injEq, Prod.mk.injEq] at h2
    obtain ⟨rfl, rfl⟩ := h2
    exact ⟨s1, h1, rfl, rfl⟩
  · rintro ⟨s1, h1, rfl, rfl⟩
    exact ⟨s1, h1, rfl⟩

theorem stepReturns_iff {s s' : Integ F n P alg.Cache} {o : Option Nat} :
    StepReturns alg cb s o s' ↔ ∃ fuel s1, alg.step fuel s = .ok s1 ∧
      s' = (match cb with | some f => applyCallback alg f s1 | none => s1) ∧
      o = if s'.sol.retcode = .Continue then some s'.stats.steps else none := by
  unfold StepReturns
  constructor
  · rintro ⟨fuel, h⟩; exact ⟨fuel, integ_step_ok.1 h⟩
  · rintro ⟨fuel, h⟩; exact ⟨fuel, integ_step_ok.2 h⟩

theorem stepReturns_none_iff {s s' : Integ F n P alg.Cache} {o : Option Nat} :
    StepReturns alg none s o s' ↔ (∃ fuel, alg.step fuel s = .ok s') ∧
      o = if s'.sol.retcode = .Continue then some s'.stats.steps else none := by
  rw [stepReturns_iff]
  constructor
  · rintro ⟨fuel, s1, h1, rfl, h2⟩; exact ⟨⟨fuel, h1⟩, h2⟩
  · rintro ⟨⟨fuel, h1⟩, h2⟩; exact ⟨fuel, s', h1, rfl, h2⟩

variable (hm : FuelMono alg)
include hm

theorem integ_step_mono {f g : Nat} {s : Integ F n P alg.Cache} {r} (hfg : f ≤ g)
    (h : Integ.step alg cb f s = .ok r) : Integ.step alg cb g s = .ok r := by
  obtain ⟨s', o⟩ := r
  obtain ⟨s1, h1, h2⟩ := integ_step_ok.1 h
  exact integ_step_ok.2 ⟨s1, hm f g _ _ hfg h1, h2⟩

/-- `step()` has at most one outcome. -/
theorem stepReturns_unique {s s1 s2 : Integ F n P alg.Cache} {o1 o2 : Option Nat}
    (h1 : StepReturns alg cb s o1 s1) (h2 : StepReturns alg cb s o2 s2) : o1 = o2 ∧ s1 = s2 := by
  obtain ⟨f, h1⟩ := h1
  obtain ⟨g, h2⟩ := h2
  have h1 := integ_step_mono hm (Nat.le_max_left f g) h1
  have h2 := integ_step_mono hm (Nat.le_max_right f g) h2
  rw [h1] at h2
  simp only [Res.ok.injEq, Prod.mk.injEq] at h2
  exact ⟨h2.2, h2.1⟩

theorem integrate_mono {f g : Nat} {s s' : Integ F n P alg.Cache} (hfg : f ≤ g)
    (h : Integ.integrate alg cb f s = .ok s') : Integ.integrate alg cb g s = .ok s' := by
  induction f generalizing g s with
  | zero => simp [Integ.integrate] at h
  | succ f ih =>
    obtain ⟨g, rfl⟩ : ∃ k, g = k + 1 := ⟨g - 1, by omega⟩
    rw [Integ.integrate, Res.bind_eq_ok] at h ⊢
    obtain ⟨⟨s1, o⟩, h1, h2⟩ := h
    refine ⟨⟨s1, o⟩, integ_step_mono hm (by omega) h1, ?_⟩
    cases o with
    | none => exact h2
    | some i => exact ih (by omega) h2

theorem forLoop_mono {f g : Nat} {s : Integ F n P alg.Cache} {r} (hfg : f ≤ g)
    (h : Integ.forLoop alg cb f s = .ok r) : Integ.forLoop alg cb g s = .ok r := by
  induction f generalizing g s r with
  | zero => simp [Integ.forLoop] at h
  | succ f ih =>
    obtain ⟨g, rfl⟩ : ∃ k, g = k + 1 := ⟨g - 1, by omega⟩
    rw [Integ.forLoop, Res.bind_eq_ok] at h ⊢
    obtain ⟨⟨s1, o⟩, h1, h2⟩ := h
    refine ⟨⟨s1, o⟩, ?_, ?_⟩
    · unfold Integ.next at h1 ⊢
      rw [Res.bind_eq_ok] at h1 ⊢
      obtain ⟨r1, h3, h4⟩ := h1
      exact ⟨r1, integ_step_mono hm (by omega) h3, h4⟩
    · cases o with
      | none => exact h2
      | some p =>
        simp only at h2 ⊢
        rw [Res.bind_eq_ok] at h2 ⊢
        obtain ⟨r1, h3, h4⟩ := h2
        exact ⟨r1, ih (by omega) h3, h4⟩
omit hm

/-- Prepending a call to a history. -/
theorem SomeSteps.cons {k : Nat} {s s1 s2 : Integ F n P alg.Cache} {i : Nat}
    (h : StepReturns alg cb s (some i) s1) (h2 : SomeSteps alg cb k s1 s2) :
    SomeSteps alg cb (k + 1) s s2 := by
  induction h2 with
  | zero => exact .succ (.zero _) h
  | succ _ h4 ih => exact .succ (ih h) h4

theorem SomeSteps.cases_zero {s s2 : Integ F n P alg.Cache} (h : SomeSteps alg cb 0 s s2) : s2 = s := by
  cases h; rfl

theorem SomeSteps.cases_cons {k : Nat} {s s2 : Integ F n P alg.Cache}
    (h : SomeSteps alg cb (k + 1) s s2) :
    ∃ s1 i, StepReturns alg cb s (some i) s1 ∧ SomeSteps alg cb k s1 s2 := by
  induction k generalizing s2 with
  | zero =>
    cases h with
    | succ h1 h2 => cases h1; exact ⟨_, _, h2, .zero _⟩
  | succ k ih =>
    cases h with
    | succ h1 h2 =>
      obtain ⟨s1, i, h3, h4⟩ := ih h1
      exact ⟨s1, i, h3, .succ h4 h2⟩

theorem SomeSteps.steps {k : Nat} {s s2 : Integ F n P alg.Cache} (h : SomeSteps alg cb k s s2) :
    Steps alg cb k s s2 := by
  induction h with
  | zero => exact .zero _
  | succ _ h2 ih => exact .succ ih h2

theorem integrate_some {fuel : Nat} {s s' : Integ F n P alg.Cache}
    (h : Integ.integrate alg cb fuel s = .ok s') :
    ∃ k s1, k < fuel ∧ SomeSteps alg cb k s s1 ∧ StepReturns alg cb s1 none s' := by
  induction fuel generalizing s with
  | zero => simp [Integ.integrate] at h
  | succ f ih =>
    rw [Integ.integrate, Res.bind_eq_ok] at h
    obtain ⟨⟨s1, o⟩, h1, h2⟩ := h
    cases o with
    | none =>
      simp only [Res.ok.injEq] at h2
      subst h2
      exact ⟨0, s, by omega, .zero s, ⟨_, h1⟩⟩
    | some i =>
      obtain ⟨k, s2, hk, h3, h4⟩ := ih h2
      exact ⟨k + 1, s2, by omega, .cons ⟨_, h1⟩ h3, h4⟩

include hm in
theorem integrate_iff {s s' : Integ F n P alg.Cache} :
    IntegrateReturns alg cb s s' ↔
      ∃ k s1, SomeSteps alg cb k s s1 ∧ StepReturns alg cb s1 none s' := by
  constructor
  · rintro ⟨fuel, h⟩
    obtain ⟨k, s1, -, h1, h2⟩ := integrate_some h
    exact ⟨k, s1, h1, h2⟩
  · rintro ⟨k, s1, h1, h2⟩
    induction k generalizing s with
    | zero =>
      cases h1
      obtain ⟨f, h2⟩ := h2
      refine ⟨f + 1, ?_⟩
      rw [Integ.integrate, integ_step_mono hm (by omega) h2]
      rfl
    | succ k ih =>
      obtain ⟨s2, i, h3, h4⟩ := h1.cases_cons
      obtain ⟨g, hg⟩ := ih h4
      obtain ⟨f, h3⟩ := h3
      refine ⟨Nat.max f g + 1, ?_⟩
      rw [Integ.integrate, integ_step_mono hm (show f ≤ Nat.max f g + 1 from
        Nat.le_succ_of_le (Nat.le_max_left f g)) h3]
      exact integrate_mono hm (Nat.le_max_right f g) hg

include hm in
theorem integrate_unique {s s1 s2 : Integ F n P alg.Cache}
    (h1 : IntegrateReturns alg cb s s1) (h2 : IntegrateReturns alg cb s s2) : s1 = s2 := by
  obtain ⟨f, h1⟩ := h1
  obtain ⟨g, h2⟩ := h2
  have h1 := integrate_mono hm (Nat.le_max_left f g) h1
  have h2 := integrate_mono hm (Nat.le_max_right f g) h2
  rw [h1] at h2
  simpa using h2

/-- What every call without callback preserves holds throughout. -/
theorem Steps.invariant {I : Integ F n P alg.Cache → Prop}
    (hI : ∀ fuel s s', I s → alg.step fuel s = .ok s' → I s')
    {k : Nat} {s s' : Integ F n P alg.Cache} (hs : I s) (h : Steps alg none k s s') : I s' := by
  induction h with
  | zero => exact hs
  | succ _ h2 ih =>
    obtain ⟨⟨fuel, h3⟩, -⟩ := stepReturns_none_iff.1 h2
    exact hI _ _ _ (ih hs) h3

/-- What every call without callback preserves while the code is `Continue`. -/
theorem SomeSteps.invariant {I : Integ F n P alg.Cache → Prop}
    (hI : ∀ fuel s s', I s → alg.step fuel s = .ok s' → I s')
    {k : Nat} {s s' : Integ F n P alg.Cache} (hs : I s) (h : SomeSteps alg none k s s') : I s' :=
  h.steps.invariant hI hs

theorem SomeSteps.continue {k : Nat} {s s' : Integ F n P alg.Cache}
    (h : SomeSteps alg cb k s s') (hs : s.sol.retcode = .Continue) : s'.sol.retcode = .Continue := by
  cases h with
  | zero => exact hs
  | succ _ h2 =>
    obtain ⟨_, _, -, -, h⟩ := stepReturns_iff.1 h2
    apply Decidable.byContradiction
    intro hc
    simp [hc] at h

/-- What every call without callback preserves, the code being `Continue` before the call. -/
theorem SomeSteps.invariant' {I : Integ F n P alg.Cache → Prop}
    (hI : ∀ fuel s s', I s → s.sol.retcode = .Continue → alg.step fuel s = .ok s' →
      s'.sol.retcode = .Continue → I s')
    {k : Nat} {s s' : Integ F n P alg.Cache} (hs : I s) (hc : s.sol.retcode = .Continue)
    (h : SomeSteps alg none k s s') : I s' := by
  induction h with
  | zero => exact hs
  | succ h1 h2 ih =>
    have h4 := SomeSteps.continue (.succ h1 h2) hc
    obtain ⟨⟨fuel, h3⟩, -⟩ := stepReturns_none_iff.1 h2
    exact hI _ _ _ (ih hs hc) (h1.continue hc) h3 h4

end

section
variable [Add F] [Sub F] [Mul F] [Div F] [Neg F] [OfScientific F] [Fl F] [FlInf F]

theorem DP5.fuelMono : FuelMono (DP5.alg : Algorithm F n P) :=
  fun _ _ _ _ h h1 => DP5.step_fuel_mono h1 h

theorem Radau.fuelMono : FuelMono (Radau.alg : Algorithm F n P) :=
  fun _ _ _ _ h h1 => Radau.step_fuel_mono h1 h

end
end Cyphus
