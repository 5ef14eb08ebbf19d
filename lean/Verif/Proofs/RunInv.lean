import Verif.Proofs.Run
import Verif.Proofs.DP5Step
import Verif.Proofs.RadauStep
/-!
# Invariants of runs, with and without callback
-/

namespace Cyphus
set_option linter.unusedSectionVars false
set_option autoImplicit false
variable {F : Type} {n : Nat} {P : Type}

section
variable {alg : Algorithm F n P} {cb : Option (Callback alg)}

theorem KeepsSol.none : KeepsSol alg none := by intro f h; cases h

/-- What every step and every callback preserves holds throughout. -/
theorem Steps.inv_cb {I : Integ F n P alg.Cache → Prop}
    (hI : ∀ fuel s s', I s → alg.step fuel s = .ok s' → I s')
    (hcb : ∀ f, cb = some f → ∀ s, I s → I (applyCallback alg f s))
    {k : Nat} {s s' : Integ F n P alg.Cache} (hs : I s) (h : Steps alg cb k s s') : I s' := by
  induction h with
  | zero => exact hs
  | succ _ h2 ih =>
    obtain ⟨fuel, s1, h3, h4, -⟩ := stepReturns_iff.1 h2
    have h5 := hI _ _ _ (ih hs) h3
    cases cb with
    | none => exact h4 ▸ h5
    | some f => exact h4 ▸ hcb f rfl _ h5

theorem SomeSteps.inv_cb {I : Integ F n P alg.Cache → Prop}
    (hI : ∀ fuel s s', I s → alg.step fuel s = .ok s' → s'.sol.retcode = .Continue → I s')
    (hk : KeepsSol alg cb)
    (hcb : ∀ f, cb = some f → ∀ s, I s → I (applyCallback alg f s))
    {k : Nat} {s s' : Integ F n P alg.Cache} (hs : I s) (h : SomeSteps alg cb k s s') : I s' := by
  induction h with
  | zero => exact hs
  | succ _ h2 ih =>
    obtain ⟨fuel, s1, h3, h4, h6⟩ := stepReturns_iff.1 h2
    cases cb with
    | none =>
      subst h4
      refine hI _ _ _ (ih hs) h3 ?_
      apply Decidable.byContradiction
      intro hc; simp [hc] at h6
    | some f =>
      subst h4
      refine hcb f rfl _ (hI _ _ _ (ih hs) h3 ?_)
      apply Decidable.byContradiction
      intro hc
      have : (applyCallback alg f s1).sol = s1.sol := hk f rfl s1
      simp [this, hc] at h6

/-- The history of a run grows. -/
structure Grows (s s' : Integ F n P alg.Cache) : Prop where
  ts : s.sol.ts <+: s'.sol.ts
  us : s.sol.us <+: s'.sol.us
  len : s'.sol.ts.length + s.sol.us.length = s.sol.ts.length + s'.sol.us.length

theorem Grows.refl (s : Integ F n P alg.Cache) : Grows s s := ⟨List.prefix_rfl, List.prefix_rfl, rfl⟩

theorem Grows.trans {a b c : Integ F n P alg.Cache} (h : Grows a b) (g : Grows b c) : Grows a c :=
  ⟨h.ts.trans g.ts, h.us.trans g.us, by have := h.len; have := g.len; omega⟩

theorem Steps.grows (hk : KeepsSol alg cb) (hg : ∀ fuel s s', alg.step fuel s = .ok s' → Grows s s')
    {k : Nat} {s s' : Integ F n P alg.Cache} (h : Steps alg cb k s s') : Grows s s' := by
  refine Steps.inv_cb (I := fun x => Grows s x) (fun fuel a b ha hb => ha.trans (hg _ _ _ hb)) ?_
    (Grows.refl s) h
  intro f hf a ha
  have : (applyCallback alg f a).sol = a.sol := hk f hf a
  exact ⟨this ▸ ha.ts, this ▸ ha.us, this ▸ ha.len⟩

theorem SomeSteps.induct {I : Nat → Integ F n P alg.Cache → Prop} {s0 : Integ F n P alg.Cache}
    (h0 : I 0 s0) (hs : ∀ {k s i s'}, I k s → StepReturns alg cb s (some i) s' → I (k + 1) s') {k : Nat}
    {s : Integ F n P alg.Cache} (h : SomeSteps alg cb k s0 s) : I k s := by
  induction h with
  | zero => exact h0
  | succ _ h2 ih => exact hs (ih h0) h2

theorem Steps.induct {I : Nat → Integ F n P alg.Cache → Prop} {s0 : Integ F n P alg.Cache}
    (h0 : I 0 s0) (hs : ∀ {k s o s'}, I k s → StepReturns alg cb s o s' → I (k + 1) s') {k : Nat}
    {s : Integ F n P alg.Cache} (h : Steps alg cb k s0 s) : I k s := by
  induction h with
  | zero => exact h0
  | succ _ h2 ih => exact hs (ih h0) h2

theorem Steps.cases_snoc {k : Nat}
    {s s2 : Integ F n P alg.Cache} (h : Steps alg cb (k + 1) s s2) :
    ∃ s1 o, Steps alg cb k s s1 ∧ StepReturns alg cb s1 o s2 := by
  cases h with
  | succ h1 h2 => exact ⟨_, _, h1, h2⟩

theorem SomeSteps.cases_snoc {k : Nat}
    {s s2 : Integ F n P alg.Cache} (h : SomeSteps alg cb (k + 1) s s2) :
    ∃ s1 i, SomeSteps alg cb k s s1 ∧ StepReturns alg cb s1 (some i) s2 := by
  cases h with
  | succ h1 h2 => exact ⟨_, _, h1, h2⟩

theorem Steps.cases_cons {k : Nat}
    {s s2 : Integ F n P alg.Cache} (h : Steps alg cb (k + 1) s s2) :
    ∃ s1 o, StepReturns alg cb s o s1 ∧ Steps alg cb k s1 s2 := by
  induction k generalizing s2 with
  | zero =>
    cases h with
    | succ h1 h2 => cases h1; exact ⟨_, _, h2, .zero _⟩
  | succ k ih =>
    cases h with
    | succ h1 h2 =>
      obtain ⟨s1, i, h3, h4⟩ := ih h1
      exact ⟨s1, i, h3, .succ h4 h2⟩

theorem Steps.zero_eq {k : Nat} {a b : Integ F n P alg.Cache} (hk : 0 = k) (h : Steps alg cb k a b) : b = a := by
  cases h with
  | zero => rfl
  | succ => simp at hk

theorem Steps.append {j k : Nat} {a b c : Integ F n P alg.Cache} (h : Steps alg cb j a b)
    (g : Steps alg cb k b c) : Steps alg cb (j + k) a c := by
  induction g with
  | zero => exact h
  | succ _ h2 ih => exact .succ (ih h) h2

theorem Steps.unique (hm : FuelMono alg) {k : Nat} {s a b : Integ F n P alg.Cache} (h : Steps alg cb k s a)
    (g : Steps alg cb k s b) : a = b := by
  induction k generalizing a b with
  | zero => rw [Steps.zero_eq rfl h, Steps.zero_eq rfl g]
  | succ k ih =>
    obtain ⟨a1, o1, h1, h2⟩ := Steps.cases_snoc h
    obtain ⟨b1, o2, g1, g2⟩ := Steps.cases_snoc g
    have := ih h1 g1
    subst this
    exact (stepReturns_unique hm h2 g2).2

theorem Steps.truncate {j k : Nat} (hj : j ≤ k) {s a : Integ F n P alg.Cache} (h : Steps alg cb k s a) :
    ∃ b, Steps alg cb j s b := by
  induction k generalizing a with
  | zero =>
    have : j = 0 := by omega
    subst this
    exact ⟨a, h⟩
  | succ k ih =>
    by_cases e : j = k + 1
    · subst e; exact ⟨a, h⟩
    · obtain ⟨a1, _, h1, _⟩ := Steps.cases_snoc h
      exact ih (by omega) h1

end

section
variable [Add F] [Sub F] [Mul F] [Div F] [Neg F] [OfScientific F] [Fl F] [FlInf F]

theorem DP5.grows (fuel : Nat) (s s' : DP5.St F n P) (h : DP5.step fuel s = .ok s') :
    Grows (alg := DP5.alg) s s' := by
  obtain ⟨k, s1, -, -, -, -, -, sp⟩ := DP5.step_spec h
  exact ⟨sp.ts ▸ List.prefix_append _ _, sp.us ▸ List.prefix_append _ _, by simp [sp.ts, sp.us]; omega⟩

/-- Any call of `step` of `Radau5`, in any state, appends to the history. -/
theorem Radau.grows (fuel : Nat) (s s' : Radau.St F n P) (h : Radau.step fuel s = .ok s') :
    Grows (alg := Radau.alg) s s' := by
  have fr : ∀ {a b : Radau.St F n P}, Radau.Frame a b → Grows (alg := Radau.alg) s a →
      Grows (alg := Radau.alg) s b := by
    intro a b hf ha
    exact ⟨hf.ts ▸ ha.ts, hf.us ▸ ha.us, by rw [hf.ts, hf.us]; exact ha.len⟩
  refine Radau.Closed.step (I := fun x => Grows (alg := Radau.alg) s x) ?_
    (fun h => fr (.clampLast _) h) (fun h => fr (.tick _) h) (fun h _ => fr (.rejectStep _ _) h)
    ?_ (fun c h => fr (.setCode c _) h) (Grows.refl (alg := Radau.alg) s) h
  · exact {
      facs := fun h => fr (.setFacs _) h
      real := fun h e => fr (.decomp_real e) h
      cplx := fun h e => fr (.decomp_complex e) h
      count := fun h => ⟨h.ts, h.us, h.len⟩
      fail := fun h => fr (.decFail _) h
      init := fun h => fr (.newtonInit _) h
      rhs := fun h => ⟨h.ts, h.us, h.len⟩
      solve := fun h _ => ⟨h.ts, h.us, h.len⟩
      theta := fun _ _ _ h => ⟨h.ts, h.us, h.len⟩
      slow := fun d h _ _ => fr (.slowStep _ d) h
      halve := fun h => fr (.halveStep _) h
      upd := fun h => ⟨h.ts, h.us, h.len⟩
      err1 := fun h => ⟨h.ts, h.us, h.len⟩
      err2 := fun h => ⟨h.ts, h.us, h.len⟩
      decomp := fun h => ⟨h.ts, h.us, h.len⟩ }
  · intro a ha _
    have h1 := Radau.acceptStep_fields a (Radau.stepQuot a)
    simp only at h1
    obtain ⟨-, -, -, -, -, -, -, -, -, -, -, -, h1, h2, -⟩ := h1
    refine ⟨?_, ?_, ?_⟩
    · rw [h1]; exact ha.ts.trans (List.prefix_append _ _)
    · rw [h2]; exact ha.us.trans (List.prefix_append _ _)
    · rw [h1, h2]; have := ha.len; simp; omega

/-- The integrator `build()` returns for `DormandPrince5`. -/
theorem DP5.build_fields {b : Builder F n P} {s : DP5.St F n P} (h : b.build DP5.alg = .ok s) :
    s.sol.ts = [b.t] ∧ s.sol.us = [b.u] ∧ s.sol.retcode = .Continue ∧ s.stats = Stats.new ∧
    s.trace = [Call.rhs b.t b.u] ∧ s.cache.reject = false ∧ s.cache.last = false ∧ s.t = b.t ∧
    s.u = b.u ∧ s.tprev = b.t ∧ s.uprev = b.u ∧ s.opts = b.opts := by
  have h' : s = _ := (Res.ok.inj h).symm
  subst h'
  exact ⟨rfl, rfl, rfl, rfl, rfl, rfl, rfl, rfl, rfl, rfl, rfl, rfl⟩

/-- The integrator `build()` returns for `Radau5`. -/
theorem Radau.build_fields {b : Builder F n P} {s : Radau.St F n P} (h : b.build Radau.alg = .ok s) :
    s.sol.ts = [b.t] ∧ s.sol.us = [b.u] ∧ s.sol.retcode = .Continue ∧ s.stats = Stats.new ∧
    s.cache.reject = false ∧ s.cache.last = false ∧ s.t = b.t ∧
    s.u = b.u ∧ s.tprev = b.t ∧ s.uprev = b.u ∧ s.opts = Radau.adjustOpts b.opts ∧
    s.cache.nsing = 0 := by
  have h' : s = _ := (Res.ok.inj h).symm
  subst h'
  exact ⟨rfl, rfl, rfl, rfl, rfl, rfl, rfl, rfl, rfl, rfl, rfl, rfl⟩

theorem Radau.build_ready {b : Builder F n P} {s : Radau.St F n P} (h : b.build Radau.alg = .ok s) :
    Radau.Ready s := ⟨(Radau.build_fields h).2.2.2.2.1, (Radau.build_fields h).2.2.1⟩

/-- During a run `Radau5` is always ready for the next step. -/
theorem Radau.SomeSteps.ready {cb : Option (Callback (Radau.alg : Algorithm F n P))}
    (hk : KeepsSol _ cb) {k : Nat} {s s' : Radau.St F n P} (hs : Radau.Ready s)
    (h : SomeSteps Radau.alg cb k s s') : Radau.Ready s' := by
  refine SomeSteps.inv_cb (alg := Radau.alg) (I := Radau.Ready) (fun fuel a b ha hb hc => Radau.Ready.step ha hb hc) hk ?_ hs h
  intro f hf a ha
  have : (applyCallback Radau.alg f a).sol = a.sol := hk f hf a
  exact ⟨ha.reject, this ▸ ha.retcode⟩

end
end Cyphus
