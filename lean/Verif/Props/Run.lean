import Verif.Proofs.RadauCount
import Verif.Proofs.Sample
/-!
# C05 - C12: the interface of runs

Level G: all theorems hold for every arithmetic, in particular for IEEE doubles.
-/

namespace Cyphus
set_option linter.unusedSectionVars false
set_option autoImplicit false
variable {F : Type} {n : Nat} {P : Type}

/-! ### C05 -/

/-- **C05** For every algorithm, with or without callback: `step()` returns `Some(stats.steps)` if the
return code after the call is `Continue` and `None` otherwise. -/
theorem C05_step_result (alg : Algorithm F n P) (cb : Option (Callback alg))
    (s s' : Integ F n P alg.Cache) (o : Option Nat) (h : StepReturns alg cb s o s') :
    (s'.sol.retcode = .Continue → o = some s'.stats.steps) ∧
    (s'.sol.retcode ≠ .Continue → o = none) := by
  obtain ⟨-, -, -, -, ho⟩ := stepReturns_iff.1 h
  exact ⟨fun hc => by rw [ho, if_pos hc], fun hc => by rw [ho, if_neg hc]⟩

/-- What C05 says about `integrate()`: it returns in `s'` iff `s'` is the state after the first `step()`
that returns `None`; the return code is then not `Continue`; there is at most one such state. -/
def IntegrateSpec (alg : Algorithm F n P) : Prop :=
  ∀ (cb : Option (Callback alg)) (s s' : Integ F n P alg.Cache),
    (IntegrateReturns alg cb s s' ↔
      ∃ k s1, SomeSteps alg cb k s s1 ∧ StepReturns alg cb s1 none s') ∧
    (IntegrateReturns alg cb s s' → s'.sol.retcode ≠ .Continue) ∧
    (∀ s'', IntegrateReturns alg cb s s' → IntegrateReturns alg cb s s'' → s' = s'')

theorem integrateSpec {alg : Algorithm F n P} (hm : FuelMono alg) : IntegrateSpec alg := by
  intro cb s s'
  refine ⟨integrate_iff hm, ?_, fun _ => integrate_unique hm⟩
  intro h
  obtain ⟨-, s1, -, h1⟩ := (integrate_iff hm).1 h
  intro hc
  have := (C05_step_result _ _ _ _ _ h1).1 hc
  simp at this

section
variable [Add F] [Sub F] [Mul F] [Div F] [Neg F] [OfScientific F] [Fl F] [FlInf F]

/-- **C05** (integrate, DormandPrince5). -/
theorem C05_integrate_dp5 : IntegrateSpec (DP5.alg : Algorithm F n P) := integrateSpec DP5.fuelMono

/-- **C05** (integrate, Radau5). -/
theorem C05_integrate_radau : IntegrateSpec (Radau.alg : Algorithm F n P) := integrateSpec Radau.fuelMono

end

/-- A concrete run on which `integrate()` returns, after one call of `step()` that returns `Some(1)` and
one that returns `None`. -/
example : ∃ s0 s1 s2 : DP5.St X 1 Unit, (DP5.sampleBuilder 1.1e-6).build DP5.alg = .ok s0 ∧
    SomeSteps DP5.alg none 1 s0 s1 ∧ IntegrateReturns DP5.alg none s0 s2 ∧
    s2.sol.retcode = .Success ∧ s2.t = X.fin 1.1e-6 := by
  obtain ⟨s0, s1, s2, hb, h1, h2, hc, -, -, ht⟩ := DP5.sample_run
  exact ⟨s0, s1, s2, hb, .succ (.zero _) h1,
    ((C05_integrate_dp5 none s0 s2).1).2 ⟨1, s1, .succ (.zero _) h1, h2⟩, hc, ht⟩

/-! ### C08 -/

/-- **C08** The `k`-th call of `next()` of either solution iterator yields the `k`-th recorded point, and
`None` from the end of the shorter vector on, for ever. -/
theorem C08_solution_iterators (sol : Solution F n) (k : Nat) :
    (SolIter.after k sol.intoIter).next.2 =
      match sol.ts[k]?, sol.us[k]? with
      | some t, some u => some (t, u)
      | _, _ => none := by
  have key : ∀ (k : Nat) (it : SolIter F n), (SolIter.after k it).next.2 =
      match it.iter_t[k]?, it.iter_u[k]? with
      | some t, some u => some (t, u)
      | _, _ => none := by
    intro k
    induction k with
    | zero =>
      rintro ⟨_ | ⟨t, l⟩, _ | ⟨u, m⟩⟩ <;> rfl
    | succ k ih =>
      intro it
      rw [SolIter.after, ih]
      obtain ⟨_ | ⟨t, l⟩, _ | ⟨u, m⟩⟩ := it
      · rfl
      · simp [SolIter.next]
      · simp [SolIter.next]
      · rfl
  exact key k _

/-- In particular, when both vectors have the same length (see C06), iterating enumerates the points. -/
theorem C08_solution_iterators_points (sol : Solution F n) (k : Nat) :
    (SolIter.after k sol.intoIter).next.2 = sol.points[k]? := by
  rw [C08_solution_iterators, Solution.points, List.zip, List.getElem?_zipWith]
  cases sol.ts[k]? <;> cases sol.us[k]? <;> rfl

/-- An iterator over two points: first, second, then `None` twice. -/
example (a b : F) (u v : Vec n F) : let it := (Solution.mk [a, b] [u, v] .Success).intoIter
    (SolIter.after 0 it).next.2 = some (a, u) ∧ (SolIter.after 1 it).next.2 = some (b, v) ∧
    (SolIter.after 2 it).next.2 = none ∧ (SolIter.after 3 it).next.2 = none := ⟨rfl, rfl, rfl, rfl⟩

/-! ### Loops over an integrator (for C09) -/

section
variable {alg : Algorithm F n P} {cb : Option (Callback alg)}

/-- The pairs yielded by a loop over the integrator, and the state afterwards, in terms of `step()`. -/
inductive Yields (alg : Algorithm F n P) (cb : Option (Callback alg)) :
    Integ F n P alg.Cache → List (F × Vec n F) → Integ F n P alg.Cache → Prop
  | nil {s s' : Integ F n P alg.Cache} : StepReturns alg cb s none s' → Yields alg cb s [] s'
  | cons {s s1 s' : Integ F n P alg.Cache} {i : Nat} {ps : List (F × Vec n F)} :
      StepReturns alg cb s (some i) s1 → Yields alg cb s1 ps s' →
      Yields alg cb s ((s1.t, s1.u) :: ps) s'

theorem Yields.induct {I : Integ F n P alg.Cache → List (F × Vec n F) → Integ F n P alg.Cache → Prop}
    (hn : ∀ {s s'}, StepReturns alg cb s none s' → I s [] s')
    (hc : ∀ {s s1 s' i ps}, StepReturns alg cb s (some i) s1 → I s1 ps s' →
      I s ((s1.t, s1.u) :: ps) s') {s s' : Integ F n P alg.Cache} {ps : List (F × Vec n F)}
    (h : Yields alg cb s ps s') : I s ps s' := by
  induction h with
  | nil h => exact hn h
  | cons h _ ih => exact hc h ih

theorem yields_of_for {fuel : Nat} {s s' : Integ F n P alg.Cache} {ps : List (F × Vec n F)}
    (h : Integ.forLoop alg cb fuel s = .ok (s', ps)) : Yields alg cb s ps s' := by
  induction fuel generalizing s ps with
  | zero => simp [Integ.forLoop] at h
  | succ f ih =>
    rw [Integ.forLoop, Res.bind_eq_ok] at h
    obtain ⟨⟨s1, o⟩, h1, h2⟩ := h
    rw [Integ.next, Res.bind_eq_ok] at h1
    obtain ⟨⟨s2, o2⟩, h3, h4⟩ := h1
    cases o2 with
    | none =>
      simp only [Res.ok.injEq, Prod.mk.injEq] at h4
      obtain ⟨rfl, rfl⟩ := h4
      simp only [Res.ok.injEq, Prod.mk.injEq] at h2
      obtain ⟨rfl, rfl⟩ := h2
      exact .nil ⟨_, h3⟩
    | some i =>
      simp only [Res.ok.injEq, Prod.mk.injEq] at h4
      obtain ⟨rfl, rfl⟩ := h4
      simp only [Res.bind_eq_ok, Res.ok.injEq, Prod.mk.injEq] at h2
      obtain ⟨⟨s3, qs⟩, h5, rfl, rfl⟩ := h2
      exact .cons ⟨_, h3⟩ (ih h5)

theorem Yields.integrate (hm : FuelMono alg) {s s' : Integ F n P alg.Cache} {ps : List (F × Vec n F)}
    (h : Yields alg cb s ps s') : IntegrateReturns alg cb s s' := by
  rw [integrate_iff hm]
  induction h with
  | nil h => exact ⟨0, _, .zero _, h⟩
  | cons h _ ih =>
    obtain ⟨k, s1, h1, h2⟩ := ih
    exact ⟨k + 1, s1, .cons h h1, h2⟩

theorem for_of_integrate {fuel : Nat} {s s' : Integ F n P alg.Cache}
    (h : Integ.integrate alg cb fuel s = .ok s') : ∃ ps, Integ.forLoop alg cb fuel s = .ok (s', ps) := by
  induction fuel generalizing s with
  | zero => simp [Integ.integrate] at h
  | succ f ih =>
    rw [Integ.integrate, Res.bind_eq_ok] at h
    obtain ⟨⟨s1, o⟩, h1, h2⟩ := h
    rw [Integ.forLoop, Integ.next, h1]
    cases o with
    | none =>
      simp only [Res.ok.injEq] at h2
      subst h2
      exact ⟨[], rfl⟩
    | some i =>
      obtain ⟨ps, hp⟩ := ih h2
      refine ⟨(s1.t, s1.u) :: ps, ?_⟩
      simp only [Res.bind_ok, hp]

/-- **C09** (last part) For every algorithm whose `step` is monotone in the fuel: a loop over the integrator
terminates iff `integrate()` does, and leaves the integrator in the same state. -/
theorem for_iff_integrate (hm : FuelMono alg) (s s' : Integ F n P alg.Cache) :
    (∃ ps, ForReturns alg cb s s' ps) ↔ IntegrateReturns alg cb s s' := by
  constructor
  · rintro ⟨ps, fuel, h⟩
    exact (yields_of_for h).integrate hm
  · rintro ⟨fuel, h⟩
    obtain ⟨ps, hp⟩ := for_of_integrate h
    exact ⟨ps, fuel, hp⟩

end

section
variable [Add F] [Sub F] [Mul F] [Div F] [Neg F] [OfScientific F] [Fl F] [FlInf F]

/-! ### C06 -/

theorem history_of {alg : Algorithm F n P} {cb : Option (Callback alg)} (hk : KeepsSol alg cb)
    (hg : ∀ fuel s s', alg.step fuel s = .ok s' → Grows s s') {t : F} {u : Vec n F} {j k : Nat}
    {s0 s1 s2 : Integ F n P alg.Cache} (ht : s0.sol.ts = [t]) (hu : s0.sol.us = [u])
    (h1 : Steps alg cb j s0 s1) (h2 : Steps alg cb k s1 s2) :
    s1.sol.ts.length = s1.sol.us.length ∧ s1.sol.ts.head? = some t ∧ s1.sol.us.head? = some u ∧
    s1.sol.ts <+: s2.sol.ts ∧ s1.sol.us <+: s2.sol.us := by
  have g1 := h1.grows hk hg
  have g2 := h2.grows hk hg
  refine ⟨?_, ?_, ?_, g2.ts, g2.us⟩
  · have := g1.len
    rw [ht, hu] at this
    simp at this
    omega
  · obtain ⟨l, hl⟩ := g1.ts
    rw [← hl, ht]; rfl
  · obtain ⟨l, hl⟩ := g1.us
    rw [← hl, hu]; rfl

/-- **C06** (DormandPrince5). After any number of calls of `step()`, with a callback that does not touch
the solution: as many times as vectors are recorded, the first point is the initial one, and further calls
only append. -/
theorem C06_history_append_only_dp5 {b : Builder F n P} {s0 s1 s2 : DP5.St F n P}
    (hb : b.build DP5.alg = .ok s0) {cb : Option (Callback DP5.alg)} (hk : KeepsSol DP5.alg cb)
    {j k : Nat} (h1 : Steps DP5.alg cb j s0 s1) (h2 : Steps DP5.alg cb k s1 s2) :
    s1.sol.ts.length = s1.sol.us.length ∧ s1.sol.ts.head? = some b.t ∧ s1.sol.us.head? = some b.u ∧
    s1.sol.ts <+: s2.sol.ts ∧ s1.sol.us <+: s2.sol.us :=
  history_of hk DP5.grows (DP5.build_fields hb).1 (DP5.build_fields hb).2.1 h1 h2

/-- **C06** (Radau5). -/
theorem C06_history_append_only_radau {b : Builder F n P} {s0 s1 s2 : Radau.St F n P}
    (hb : b.build Radau.alg = .ok s0) {cb : Option (Callback Radau.alg)} (hk : KeepsSol Radau.alg cb)
    {j k : Nat} (h1 : Steps Radau.alg cb j s0 s1) (h2 : Steps Radau.alg cb k s1 s2) :
    s1.sol.ts.length = s1.sol.us.length ∧ s1.sol.ts.head? = some b.t ∧ s1.sol.us.head? = some b.u ∧
    s1.sol.ts <+: s2.sol.ts ∧ s1.sol.us <+: s2.sol.us :=
  history_of hk Radau.grows (Radau.build_fields hb).1 (Radau.build_fields hb).2.1 h1 h2

/-! ### C07 -/

/-- **C07** (DormandPrince5). In every state, a `step()` that returns has appended exactly one point, the
integrator's `(t, u)`. -/
theorem C07_one_point_per_step_dp5 {s s' : DP5.St F n P} {o : Option Nat}
    (h : StepReturns DP5.alg none s o s') :
    s'.sol.ts = s.sol.ts ++ [s'.t] ∧ s'.sol.us = s.sol.us ++ [s'.u] ∧
    s'.stats.accepts = s.stats.accepts + 1 := by
  obtain ⟨⟨fuel, h⟩, -⟩ := stepReturns_none_iff.1 h
  obtain ⟨k, s1, -, -, -, -, -, sp⟩ := DP5.step_spec h
  exact ⟨sp.ts, sp.us, sp.accepts⟩

/-- **C07** (Radau5). During a run, a `step()` either accepts a step and appends exactly one point, the
integrator's `(t, u)`, or it accepts none, appends nothing, leaves `t` and `u` alone and returns `None`
with an error code. -/
theorem C07_one_point_per_accept_radau {b : Builder F n P} {s0 s s' : Radau.St F n P}
    (hb : b.build Radau.alg = .ok s0) {k : Nat} (hs : SomeSteps Radau.alg none k s0 s) {o : Option Nat}
    (h : StepReturns Radau.alg none s o s') :
    (s'.stats.accepts = s.stats.accepts + 1 ∧
      s'.sol.ts = s.sol.ts ++ [s'.t] ∧ s'.sol.us = s.sol.us ++ [s'.u] ∧
      (s'.sol.retcode = .Continue ∨ s'.sol.retcode = .Success)) ∨
    (s'.stats.accepts = s.stats.accepts ∧ s'.sol.ts = s.sol.ts ∧ s'.sol.us = s.sol.us ∧
      s'.t = s.t ∧ s'.u = s.u ∧ o = none ∧
      (s'.sol.retcode = .SingularMatrix ∨ s'.sol.retcode = .MaxIters ∨
        s'.sol.retcode = .DtLessThanMin)) := by
  have hr := Radau.SomeSteps.ready .none (Radau.build_ready hb) hs
  obtain ⟨⟨fuel, h⟩, ho⟩ := stepReturns_none_iff.1 h
  obtain ⟨-, h | h⟩ := Radau.step_cases hr h
  · exact .inl ⟨h.accepts, h.ts, h.us, h.retcode⟩
  · refine .inr ⟨h.frame.accepts, h.frame.ts, h.frame.us, h.frame.t, h.frame.u, ?_, h.retcode⟩
    rw [ho, if_neg]
    intro hc
    have := h.retcode
    simp [hc] at this

/-- In every state, also after the end of a run, the number of points a Radau5 `step()` appends is the
number of steps it accepts. -/
theorem C07_points_are_accepts_radau {s s' : Radau.St F n P} {o : Option Nat}
    (h : StepReturns Radau.alg none s o s') : s.stats.accepts ≤ s'.stats.accepts ∧
    s'.sol.ts.length + s.stats.accepts = s.sol.ts.length + s'.stats.accepts := by
  obtain ⟨⟨fuel, h⟩, -⟩ := stepReturns_none_iff.1 h
  have := (Radau.step_counts h).1
  exact ⟨this.accepts, this.points⟩


/-- On the sample run: after the first call two points are recorded, after the second three. -/
example : ∃ s0 s1 s2 : DP5.St X 1 Unit, (DP5.sampleBuilder 1.1e-6).build DP5.alg = .ok s0 ∧
    Steps DP5.alg none 1 s0 s1 ∧ Steps DP5.alg none 1 s1 s2 ∧
    s0.sol.ts.length = 1 ∧ s1.sol.ts.length = 2 ∧ s2.sol.ts.length = 3 := by
  obtain ⟨s0, s1, s2, hb, h1, h2, -⟩ := DP5.sample_run
  have e0 := (DP5.build_fields hb).1
  have e1 := (C07_one_point_per_step_dp5 h1).1
  have e2 := (C07_one_point_per_step_dp5 h2).1
  exact ⟨s0, s1, s2, hb, .succ (.zero _) h1, .succ (.zero _) h2, by simp [e0], by simp [e0, e1],
    by simp [e0, e1, e2]⟩

/-! ### C09 -/

/-- **C09** (DormandPrince5). The pairs yielded by a loop over the integrator are the recorded points
without the first (the initial point) and without the last: the point at which the run ends is not
yielded. -/
theorem C09_iterator_misses_last_dp5 {b : Builder F n P} {s0 s' : DP5.St F n P}
    (hb : b.build DP5.alg = .ok s0) {ps : List (F × Vec n F)} (h : ForReturns DP5.alg none s0 s' ps) :
    s'.sol.points = (b.t, b.u) :: ps ++ [(s'.t, s'.u)] := by
  obtain ⟨fuel, h⟩ := h
  have h := yields_of_for h
  have key : ∀ {s s' : DP5.St F n P} {ps : List (F × Vec n F)}, Yields DP5.alg none s ps s' →
      s.sol.ts.length = s.sol.us.length →
      s'.sol.points = s.sol.points ++ ps ++ [(s'.t, s'.u)] := by
    intro s s' ps h
    refine Yields.induct (alg := DP5.alg) (I := fun s ps s' => s.sol.ts.length = s.sol.us.length →
      s'.sol.points = s.sol.points ++ ps ++ [(s'.t, s'.u)]) ?_ ?_ h
    · intro s s' h hl
      have := C07_one_point_per_step_dp5 h
      rw [Solution.points, this.1, this.2.1, List.zip_append hl]
      simp [Solution.points]
    · intro s s1 s' i ps h ih hl
      have := C07_one_point_per_step_dp5 h
      rw [ih (by rw [this.1, this.2.1]; simp [hl])]
      rw [Solution.points, this.1, this.2.1, List.zip_append hl]
      simp [Solution.points]
  have e := DP5.build_fields hb
  rw [key h (by rw [e.1, e.2.1]; rfl), Solution.points, e.1, e.2.1]
  rfl

/-- **C09** (Radau5). The final point is missed as well; it exists only if the run ended with `Success`. -/
theorem C09_iterator_misses_last_radau {b : Builder F n P} {s0 s' : Radau.St F n P}
    (hb : b.build Radau.alg = .ok s0) {ps : List (F × Vec n F)}
    (h : ForReturns Radau.alg none s0 s' ps) :
    s'.sol.points = (b.t, b.u) :: ps ++
      if s'.sol.retcode = .Success then [(s'.t, s'.u)] else [] := by
  obtain ⟨fuel, h⟩ := h
  have h := yields_of_for h
  have key : ∀ {s s' : Radau.St F n P} {ps : List (F × Vec n F)}, Yields Radau.alg none s ps s' →
      Radau.Ready s → s.sol.ts.length = s.sol.us.length →
      s'.sol.points = s.sol.points ++ ps ++
        if s'.sol.retcode = .Success then [(s'.t, s'.u)] else [] := by
    intro s s' ps h
    refine Yields.induct (alg := Radau.alg) (I := fun s ps s' => Radau.Ready s →
      s.sol.ts.length = s.sol.us.length → s'.sol.points = s.sol.points ++ ps ++
        if s'.sol.retcode = .Success then [(s'.t, s'.u)] else []) ?_ ?_ h
    · intro s s' h hr hl
      obtain ⟨⟨fuel, h⟩, ho⟩ := stepReturns_none_iff.1 h
      obtain ⟨-, h | h⟩ := Radau.step_cases hr h
      · have hc := h.retcode
        have : s'.sol.retcode ≠ RetCode.Continue := by intro hc; rw [if_pos hc] at ho; simp at ho
        rw [if_pos (hc.resolve_left this), Solution.points, h.ts, h.us, List.zip_append hl]
        simp [Solution.points]
      · rw [if_neg, Solution.points, h.frame.ts, h.frame.us]
        · simp [Solution.points]
        · intro hc
          have := h.retcode
          simp [hc] at this
    · intro s s1 s' i ps h ih hr hl
      obtain ⟨⟨fuel, h⟩, ho⟩ := stepReturns_none_iff.1 h
      have hc : s1.sol.retcode = RetCode.Continue := by
        apply Decidable.byContradiction; intro hc; rw [if_neg hc] at ho; simp at ho
      have hr' := hr.step h hc
      obtain ⟨-, h | h⟩ := Radau.step_cases hr h
      · rw [ih hr' (by rw [h.ts, h.us]; simp [hl])]
        rw [Solution.points, h.ts, h.us, List.zip_append hl]
        simp [Solution.points]
      · have := h.retcode
        simp [hc] at this
  have e := Radau.build_fields hb
  rw [key h (Radau.build_ready hb) (by rw [e.1, e.2.1]; rfl), Solution.points, e.1, e.2.1]
  rfl

/-- **C09** Looping over the integrator and calling `integrate()` lead to the same state, and one
terminates iff the other does. -/
theorem C09_for_loop_is_integrate_dp5 (cb : Option (Callback (DP5.alg : Algorithm F n P)))
    (s s' : DP5.St F n P) :
    (∃ ps, ForReturns DP5.alg cb s s' ps) ↔ IntegrateReturns DP5.alg cb s s' :=
  for_iff_integrate DP5.fuelMono s s'

theorem C09_for_loop_is_integrate_radau (cb : Option (Callback (Radau.alg : Algorithm F n P)))
    (s s' : Radau.St F n P) :
    (∃ ps, ForReturns Radau.alg cb s s' ps) ↔ IntegrateReturns Radau.alg cb s s' :=
  for_iff_integrate Radau.fuelMono s s'

/-- The loop over the sample problem yields exactly one pair, at time `1e-6`; the point at `tfinal` is
recorded in the solution but not yielded. -/
example : ∃ (s0 s2 : DP5.St X 1 Unit) (u : Vec 1 X), (DP5.sampleBuilder 1.1e-6).build DP5.alg = .ok s0 ∧
    ForReturns DP5.alg none s0 s2 [(X.fin 1e-6, u)] ∧ s2.sol.ts = [X.fin 0, X.fin 1e-6, X.fin 1.1e-6] := by
  obtain ⟨s0, s1, s2, hb, h1, h2, -, -, t1, t2⟩ := DP5.sample_run
  obtain ⟨ps, hp⟩ := (C09_for_loop_is_integrate_dp5 none s0 s2).2
    ((C05_integrate_dp5 none s0 s2).1.2 ⟨1, s1, .succ (.zero _) h1, h2⟩)
  have e0 := (DP5.build_fields hb).1
  have e0' := (DP5.build_fields hb).2.1
  have e1 := C07_one_point_per_step_dp5 h1
  have e2 := C07_one_point_per_step_dp5 h2
  have := C09_iterator_misses_last_dp5 hb hp
  rw [Solution.points, e2.1, e2.2.1, e1.1, e1.2.1, e0, e0'] at this
  simp only [List.cons_append, List.nil_append, List.zip_cons_cons, List.zip_nil_right] at this
  obtain _ | ⟨p, _ | ⟨q, l⟩⟩ := ps
  · simp at this
  · simp only [List.cons_append, List.nil_append, List.cons.injEq, and_true, true_and] at this
    refine ⟨s0, s2, s1.u, hb, ?_, ?_⟩
    · rw [← t1, this]; exact hp
    · rw [e2.1, e1.1, e0, t1, t2]; rfl
  · simp at this

/-! ### C10 -/

/-- **C10** (DormandPrince5). At any time of any history without callback the code is one of `Continue`,
`Success`, `MaxIters`, `DtLessThanMin`; after `integrate()` it is one of the last three. -/
theorem C10_return_codes_dp5 {b : Builder F n P} {s0 : DP5.St F n P} (hb : b.build DP5.alg = .ok s0) :
    (∀ k s, Steps DP5.alg none k s0 s → s.sol.retcode = .Continue ∨ s.sol.retcode = .Success ∨
      s.sol.retcode = .MaxIters ∨ s.sol.retcode = .DtLessThanMin) ∧
    (∀ s, IntegrateReturns DP5.alg none s0 s → s.sol.retcode = .Success ∨
      s.sol.retcode = .MaxIters ∨ s.sol.retcode = .DtLessThanMin) := by
  have key : ∀ k s, Steps DP5.alg none k s0 s → s.sol.retcode = .Continue ∨ s.sol.retcode = .Success ∨
      s.sol.retcode = .MaxIters ∨ s.sol.retcode = .DtLessThanMin := by
    intro k s h
    refine Steps.invariant (alg := DP5.alg) (I := fun s => s.sol.retcode = .Continue ∨
      s.sol.retcode = .Success ∨ s.sol.retcode = .MaxIters ∨ s.sol.retcode = .DtLessThanMin) ?_
      (.inl (DP5.build_fields hb).2.2.1) h
    intro fuel a b ha hb
    obtain ⟨k, s1, -, -, -, -, -, sp⟩ := DP5.step_spec hb
    obtain h | h | h | h := sp.retcode
    · exact .inr (.inl h)
    · exact .inr (.inr (.inl h))
    · exact .inr (.inr (.inr h))
    · simpa only [h] using ha
  refine ⟨key, fun s h => ?_⟩
  have hc := (C05_integrate_dp5 none s0 s).2.1 h
  obtain ⟨k, s1, h1, h2⟩ := (C05_integrate_dp5 none s0 s).1.1 h
  exact (key _ _ (.succ h1.steps h2)).resolve_left hc

/-- **C10** (Radau5). -/
theorem C10_return_codes_radau {b : Builder F n P} {s0 : Radau.St F n P}
    (hb : b.build Radau.alg = .ok s0) :
    (∀ k s, Steps Radau.alg none k s0 s → s.sol.retcode = .Continue ∨ s.sol.retcode = .Success ∨
      s.sol.retcode = .MaxIters ∨ s.sol.retcode = .DtLessThanMin ∨ s.sol.retcode = .SingularMatrix) ∧
    (∀ s, IntegrateReturns Radau.alg none s0 s → s.sol.retcode = .Success ∨
      s.sol.retcode = .MaxIters ∨ s.sol.retcode = .DtLessThanMin ∨
      s.sol.retcode = .SingularMatrix) := by
  have key : ∀ k s, Steps Radau.alg none k s0 s → s.sol.retcode = .Continue ∨ s.sol.retcode = .Success ∨
      s.sol.retcode = .MaxIters ∨ s.sol.retcode = .DtLessThanMin ∨ s.sol.retcode = .SingularMatrix :=
    fun k s h => Radau.codes (.inl (Radau.build_fields hb).2.2.1) h
  refine ⟨key, fun s h => ?_⟩
  have hc := (C05_integrate_radau none s0 s).2.1 h
  obtain ⟨k, s1, h1, h2⟩ := (C05_integrate_radau none s0 s).1.1 h
  exact (key _ _ (.succ h1.steps h2)).resolve_left hc

/-- `Success` occurs, see `DP5.sample_run`; `MaxIters` occurs: the same problem with `max_steps = 0`. -/
example : ∃ s0 s1 : DP5.St X 1 Unit,
    ((DP5.sampleBuilder 1.1e-6).sets [.max_steps 0]).build DP5.alg = .ok s0 ∧
    IntegrateReturns DP5.alg none s0 s1 ∧ s1.sol.retcode = .MaxIters := by
  obtain ⟨s0, s1, hb, h1, hc⟩ := DP5.sample_maxIters
  exact ⟨s0, s1, hb, ((C05_integrate_dp5 none s0 s1).1).2 ⟨0, s0, .zero _, h1⟩, hc⟩

/-! ### C11 -/

/-- **C11** (DormandPrince5). Before a run ends at most `max_steps` calls return `Some`, so `integrate()`
makes at most `max_steps + 1` calls; at most `max_steps + 2` points are recorded. -/
theorem C11_max_steps_dp5 {b : Builder F n P} {s0 : DP5.St F n P} (hb : b.build DP5.alg = .ok s0) :
    (∀ k s, SomeSteps DP5.alg none k s0 s → k ≤ b.opts.max_steps) ∧
    (∀ s, IntegrateReturns DP5.alg none s0 s → s.stats.steps ≤ b.opts.max_steps + 1 ∧
      s.sol.ts.length ≤ b.opts.max_steps + 2) := by
  have e := DP5.build_fields hb
  have e3 : s0.opts = b.opts := e.2.2.2.2.2.2.2.2.2.2.2
  have key : ∀ k s, SomeSteps DP5.alg none k s0 s → k ≤ b.opts.max_steps ∧ s.stats.steps = k ∧
      s.sol.ts.length = k + 1 ∧ s.opts = b.opts := by
    intro k s h
    refine SomeSteps.induct (alg := DP5.alg) (I := fun k s => k ≤ b.opts.max_steps ∧ s.stats.steps = k ∧
      s.sol.ts.length = k + 1 ∧ s.opts = b.opts) ?_ ?_ h
    · exact ⟨Nat.zero_le _, by rw [e.2.2.2.1]; rfl, by rw [e.1]; rfl, e3⟩
    · intro k s i s' ih h2
      obtain ⟨⟨fuel, h3⟩, ho⟩ := stepReturns_none_iff.1 h2
      obtain ⟨k, s1, -, -, -, -, -, sp⟩ := DP5.step_spec h3
      refine ⟨?_, by rw [sp.steps, ih.2.1], by rw [sp.ts]; simp [ih.2.2.1], sp.opts.trans ih.2.2.2⟩
      apply Decidable.byContradiction
      intro hlt
      have := sp.limit (by rw [sp.steps, ih.2.1, ih.2.2.2]; omega)
      rw [if_neg] at ho
      · simp at ho
      · intro hc; simp [hc] at this
  refine ⟨fun k s h => (key k s h).1, fun s h => ?_⟩
  obtain ⟨k, s1, h1, h2⟩ := (C05_integrate_dp5 none s0 s).1.1 h
  obtain ⟨⟨fuel, h3⟩, -⟩ := stepReturns_none_iff.1 h2
  obtain ⟨j, s2, -, -, -, -, -, sp⟩ := DP5.step_spec h3
  have := key k s1 h1
  rw [sp.steps, sp.ts]
  simp only [List.length_append, List.length_singleton]
  omega

/-- **C11** (Radau5). Before a run ends fewer than `max 1 max_steps` calls return `Some`, so `integrate()`
makes at most `max 1 max_steps` calls; the total number of attempts and the number of recorded points obey
the same bound. -/
theorem C11_max_steps_radau {b : Builder F n P} {s0 : Radau.St F n P} (hb : b.build Radau.alg = .ok s0) :
    (∀ k s, SomeSteps Radau.alg none k s0 s → k < max 1 b.opts.max_steps) ∧
    (∀ s, IntegrateReturns Radau.alg none s0 s → s.stats.steps ≤ max 1 b.opts.max_steps ∧
      s.sol.ts.length ≤ max 1 b.opts.max_steps) := by
  have e := Radau.build_fields hb
  have e3 : s0.opts.max_steps = b.opts.max_steps := by
    rw [e.2.2.2.2.2.2.2.2.2.2.1]; rfl
  have e4 : s0.stats.steps = 0 ∧ s0.stats.accepts = 0 ∧ s0.stats.rejects = 0 := by
    rw [e.2.2.2.1]; exact ⟨rfl, rfl, rfl⟩
  have key : ∀ k s, SomeSteps Radau.alg none k s0 s → k ≤ s.stats.steps ∧
      s.stats.steps < max 1 b.opts.max_steps ∧ s.sol.ts.length = s.stats.accepts + 1 ∧
      s.stats.accepts ≤ s.stats.steps ∧ s.opts.max_steps = b.opts.max_steps := by
    intro k s h
    refine SomeSteps.induct (alg := Radau.alg) (I := fun k s => k ≤ s.stats.steps ∧
      s.stats.steps < max 1 b.opts.max_steps ∧ s.sol.ts.length = s.stats.accepts + 1 ∧
      s.stats.accepts ≤ s.stats.steps ∧ s.opts.max_steps = b.opts.max_steps) ?_ ?_ h
    · rw [e4.1, e4.2.1, e.1]; exact ⟨Nat.le_refl _, by omega, rfl, Nat.le_refl _, e3⟩
    · intro k s i s' ih h2
      obtain ⟨⟨fuel, h3⟩, ho⟩ := stepReturns_none_iff.1 h2
      have hc : s'.sol.retcode = RetCode.Continue := by
        apply Decidable.byContradiction; intro hc; rw [if_neg hc] at ho; simp at ho
      have c := Radau.step_counts h3
      have c3 := c.2.2 hc
      have cp := c.1.points
      have cb := c.1.budget
      have cr := Radau.step_rejects h3
      rw [c.1.opts]
      refine ⟨by omega, by omega, by omega, by omega, ih.2.2.2.2⟩
  refine ⟨fun k s h => by have := key k s h; omega, fun s h => ?_⟩
  obtain ⟨k, s1, h1, h2⟩ := (C05_integrate_radau none s0 s).1.1 h
  obtain ⟨⟨fuel, h3⟩, -⟩ := stepReturns_none_iff.1 h2
  have c := Radau.step_counts h3
  have cp := c.1.points
  have cb := c.1.budget
  have cr := Radau.step_rejects h3
  have hk := key k s1 h1
  have cl := Radau.step_accept_limit (Radau.SomeSteps.ready .none (Radau.build_ready hb) h1) h3
  refine ⟨by omega, ?_⟩
  by_cases ha : s.stats.accepts = s1.stats.accepts
  · omega
  · have := cl ha
    omega

/-- With `max_steps = 0` the sample run makes one call and records two points: the bounds are attained. -/
example : ∃ s0 s1 : DP5.St X 1 Unit,
    ((DP5.sampleBuilder 1.1e-6).sets [.max_steps 0]).build DP5.alg = .ok s0 ∧
    IntegrateReturns DP5.alg none s0 s1 ∧ s1.stats.steps = 0 + 1 ∧ s1.sol.ts.length = 0 + 2 := by
  obtain ⟨s0, s1, hb, h1, hc⟩ := DP5.sample_maxIters
  have e := DP5.build_fields hb
  obtain ⟨⟨fuel, h3⟩, -⟩ := stepReturns_none_iff.1 h1
  obtain ⟨j, s2, -, -, -, -, -, sp⟩ := DP5.step_spec h3
  refine ⟨s0, s1, hb, ((C05_integrate_dp5 none s0 s1).1).2 ⟨0, s0, .zero _, h1⟩, ?_, ?_⟩
  · rw [sp.steps, e.2.2.2.1]; rfl
  · rw [sp.ts, e.1]; rfl

/-! ### C12 -/

/-- **C12** For a system of dimension at least one, in every state and for every right-hand side, a Radau5
`step()` without callback returns, with a number of passes through its loops bounded by `max_steps`. -/
theorem C12_step_terminates_radau (hn : n ≠ 0) (s : Radau.St F n P) :
    ∃ s' o, Integ.step Radau.alg none (s.opts.max_steps + 5) s = .ok (s', o) := by
  obtain ⟨s', h⟩ := Radau.step_total hn s
  exact ⟨s', _, integ_step_ok.2 ⟨s', h, rfl, rfl⟩⟩

/-- **C12** The same for `integrate()`. The fuel bounds the number of `step()` calls, the number of
attempts in each of them and the number of attempted decompositions; the Newton iteration in an attempt is
bounded by its own counter. -/
theorem C12_integrate_terminates_radau (hn : n ≠ 0) (s : Radau.St F n P) :
    ∃ s', Integ.integrate Radau.alg none (2 * s.opts.max_steps + 6) s = .ok s' := by
  have key : ∀ (fuel : Nat) (s : Radau.St F n P), 2 * s.opts.max_steps + 6 ≤ fuel + s.stats.steps →
      s.opts.max_steps + 5 ≤ fuel → ∃ s', Integ.integrate Radau.alg none fuel s = .ok s' := by
    intro fuel
    induction fuel with
    | zero => intro s _ h; omega
    | succ f ih =>
      intro s h1 h2
      obtain ⟨s1, h3⟩ := Radau.step_total hn s
      have h4 := Radau.step_fuel_mono h3 h2
      have c := (Radau.step_counts h3)
      rw [Integ.integrate, integ_step_ok.2 ⟨s1, h4, rfl, rfl⟩]
      simp only [Res.bind_ok]
      by_cases hc : s1.sol.retcode = .Continue
      · rw [if_pos hc]
        have := c.2.2 hc
        exact ih s1 (by rw [c.1.opts]; omega) (by rw [c.1.opts]; omega)
      · rw [if_neg hc]
        exact ⟨s1, rfl⟩
  exact key _ s (by omega) (by omega)

end
end Cyphus
