import Verif.Proofs.RadauCalls
import Verif.Props.Run
/-!
# Statistics, rejected attempts, previous point, callback (C17, C31, C32, C45, C49, C53)

All theorems of this file hold for every arithmetic.
-/

namespace Cyphus
set_option linter.unusedSectionVars false
set_option autoImplicit false
variable {F : Type} {n : Nat} {P : Type}

section
variable [Add F] [Sub F] [Mul F] [Div F] [Neg F] [OfScientific F] [Fl F] [FlInf F]

/-! ### C31 -/

/-- All calls of user code recorded in a trace are calls of the right-hand side. -/
def OnlyRhs (l : List (Call F n)) : Prop := ∀ c ∈ l, ∃ t u, c = Call.rhs t u

theorem onlyRhs_of_count {l : List (Call F n)} (h : rhsCalls l = l.length) : OnlyRhs l := by
  intro c hc
  have := List.countP_eq_length.1 h c hc
  cases c with
  | rhs t u => exact ⟨t, u, rfl⟩
  | jacU t u => simp at this
  | jacT t u => simp at this

/-- **C31** After `k` calls of `step()` on an integrator built for DormandPrince5: the counters. `trace` is the
list of the calls of user code actually made. -/
theorem C31_statistics_dp5 {b : Builder F n P} {s0 s : DP5.St F n P} {k : Nat}
    (hb : b.build DP5.alg = .ok s0) (h : Steps DP5.alg none k s0 s) :
    s.stats.steps = k ∧ s.stats.accepts = k ∧ s.sol.ts.length = k + 1 ∧ s.sol.us.length = k + 1 ∧
    s.trace.length = s.stats.function_evals + 1 ∧ OnlyRhs s.trace ∧
    s.stats.jacobian_evals = 0 ∧ s.stats.decompositions = 0 ∧ s.stats.linear_solves = 0 := by
  obtain ⟨e1, e2, -, e4, e5, -⟩ := DP5.build_fields hb
  have := Steps.induct (alg := DP5.alg) (I := fun k s => s.stats.steps = k ∧ s.stats.accepts = k ∧
    s.sol.ts.length = k + 1 ∧ s.sol.us.length = k + 1 ∧
    s.trace.length = s.stats.function_evals + 1 ∧ rhsCalls s.trace = s.stats.function_evals + 1 ∧
    s.stats.jacobian_evals = 0 ∧ s.stats.decompositions = 0 ∧ s.stats.linear_solves = 0) ?_ ?_ h
  · obtain ⟨a1, a2, a3, a4, a5, a6, a7⟩ := this
    exact ⟨a1, a2, a3, a4, a5, onlyRhs_of_count (by rw [a6, a5]), a7⟩
  · rw [e1, e2, e4, e5]
    exact ⟨rfl, rfl, rfl, rfl, rfl, by simp [rhsCalls, Stats.new], rfl, rfl, rfl⟩
  · intro k s o s' ⟨a1, a2, a3, a4, a5, a6, a7, a8, a9⟩ h
    obtain ⟨⟨fuel, h⟩, -⟩ := stepReturns_none_iff.1 h
    obtain ⟨j, s1, -, -, -, -, -, sp⟩ := DP5.step_spec h
    obtain ⟨l, l1, l2, l3⟩ := sp.trace
    refine ⟨by rw [sp.steps, a1], by rw [sp.accepts, a2], by rw [sp.ts]; simp [a3],
      by rw [sp.us]; simp [a4], ?_, ?_, by rw [sp.jacobian_evals, a7], by rw [sp.decompositions, a8],
      by rw [sp.linear_solves, a9]⟩
    · rw [l1, List.length_append, a5, l2, sp.function_evals]; omega
    · rw [l1, Radau.rhsCalls_append, a6, l3, sp.function_evals]; omega

/-- The call of `step()` in state `s` returns after exactly `a` attempts (passes through the loop of the
algorithm). -/
def DP5.StepAttempts (a : Nat) (s : DP5.St F n P) (o : Option Nat) (s' : DP5.St F n P) : Prop :=
  Integ.step DP5.alg none a s = .ok (s', o) ∧ ∀ f, f < a → Integ.step DP5.alg none f s = .timeout

theorem DP5.attemptLoop_timeout {k f : Nat} {s s1 : DP5.St F n P} (h : DP5.Rejs k s s1) (hf : f ≤ k) :
    DP5.attemptLoop f s = .timeout := by
  induction h generalizing f with
  | zero s => obtain rfl : f = 0 := by omega
              rfl
  | succ h1 _ ih =>
    cases f with
    | zero => rfl
    | succ f =>
      rw [DP5.attemptLoop_succ, if_neg (by simp [h1])]
      exact ih (by omega)

/-- Every call of `step()` that returns does so after some number of attempts. -/
theorem DP5.stepAttempts_exists {s s' : DP5.St F n P} {o : Option Nat}
    (h : StepReturns DP5.alg none s o s') : ∃ a, DP5.StepAttempts a s o s' := by
  obtain ⟨⟨fuel, h⟩, ho⟩ := stepReturns_none_iff.1 h
  obtain ⟨k, s1, hk, r, h1⟩ := DP5.step_ok.1 h
  refine ⟨k + 1, integ_step_ok.2 ⟨s', DP5.step_ok.2 ⟨k, s1, by omega, r, h1⟩, rfl, ho⟩, ?_⟩
  intro f hf
  simp only [Integ.step, DP5.step]
  rw [DP5.attemptLoop_timeout r (by omega)]
  rfl

/-- **C31** Six function evaluations are counted per attempt, and the rejected attempts are counted if a step
has been accepted before. -/
theorem C31_attempts_dp5 {s s' : DP5.St F n P} {o : Option Nat} {a : Nat}
    (h : DP5.StepAttempts a s o s') :
    s'.stats.function_evals = s.stats.function_evals + 6 * a ∧
    s'.stats.rejects = s.stats.rejects + (if s.stats.accepts ≥ 1 then a - 1 else 0) := by
  obtain ⟨s1, h1, h2, -⟩ := integ_step_ok.1 h.1
  subst h2
  obtain ⟨k, s2, hk, hr, h3, h4, h5, sp⟩ := DP5.step_spec h1
  have : a = k + 1 := by
    apply Decidable.byContradiction
    intro hne
    have := h.2 (k + 1) (by omega)
    simp only [Integ.step] at this
    have h6 : DP5.step (k + 1) s = .ok s' := DP5.step_ok.2 ⟨k, s2, by omega, hr, h3, h4, h5⟩
    rw [h6] at this
    simp at this
  subst this
  exact ⟨sp.function_evals, sp.rejects⟩

/-- **C31** Over a whole run: if the first call makes `a` attempts, then at any later time the number of
function evaluations is six times the number of accepted steps, counted rejections and rejections of the
first call. -/
theorem C31_function_evals_dp5 {b : Builder F n P} {s0 s : DP5.St F n P} {k : Nat}
    (hb : b.build DP5.alg = .ok s0) (h : Steps DP5.alg none (k + 1) s0 s) :
    ∃ a o s1, 1 ≤ a ∧ DP5.StepAttempts a s0 o s1 ∧
      s.stats.function_evals = 6 * (s.stats.accepts + s.stats.rejects + (a - 1)) := by
  obtain ⟨s1, o, h1, h2⟩ := h.cases_cons
  obtain ⟨a, ha⟩ := DP5.stepAttempts_exists h1
  have e4 := (DP5.build_fields hb).2.2.2.1
  have c := C31_attempts_dp5 ha
  have c1 := C31_statistics_dp5 hb (.succ (.zero _) h1)
  have a1 : 1 ≤ a := by
    cases a with
    | zero => have := ha.1; simp [Integ.step, DP5.step, DP5.attemptLoop] at this
    | succ a => omega
  refine ⟨a, o, s1, a1, ha, ?_⟩
  refine (Steps.induct (alg := DP5.alg) (I := fun _ s => s.stats.accepts ≥ 1 ∧ s.stats.function_evals =
    6 * (s.stats.accepts + s.stats.rejects + (a - 1))) ?_ ?_ h2).2
  · rw [e4] at c
    rw [if_neg (by simp [Stats.new])] at c
    simp only [Stats.new] at c
    exact ⟨by omega, by omega⟩
  · intro k s o s' ⟨i1, i2⟩ h
    obtain ⟨a', ha'⟩ := DP5.stepAttempts_exists h
    have c' := C31_attempts_dp5 ha'
    rw [if_pos i1] at c'
    obtain ⟨⟨fuel, h⟩, -⟩ := stepReturns_none_iff.1 h
    obtain ⟨j, s1, -, -, -, -, -, sp⟩ := DP5.step_spec h
    have c3 := sp.accepts
    have : 1 ≤ a' := by
      cases a' with
      | zero => have := ha'.1; simp [Integ.step, DP5.step, DP5.attemptLoop] at this
      | succ a => omega
    constructor <;> omega

/-- The sample run after its two calls. -/
example : ∃ s0 s2 : DP5.St X 1 Unit, (DP5.sampleBuilder 1.1e-6).build DP5.alg = .ok s0 ∧
    Steps DP5.alg none 2 s0 s2 ∧ s2.stats.steps = 2 ∧ s2.sol.ts.length = 3 := by
  obtain ⟨s0, s1, s2, hb, h1, h2, -⟩ := DP5.sample_run
  have h : Steps DP5.alg none 2 s0 s2 := .succ (.succ (.zero _) h1) h2
  have := C31_statistics_dp5 hb h
  exact ⟨s0, s2, hb, h, this.1, this.2.2.1⟩

/-! ### C32 -/

/-- **C32** After any number of calls of `step()` on an integrator built for Radau5. -/
theorem C32_statistics_radau {b : Builder F n P} {s0 s : Radau.St F n P} {k : Nat}
    (hb : b.build Radau.alg = .ok s0) (h : Steps Radau.alg none k s0 s) :
    s.stats.accepts + 1 = s.sol.ts.length ∧
    s.stats.accepts + s.stats.rejects ≤ s.stats.steps ∧
    s.stats.linear_solves ≤ b.opts.max_newt_iter * s.stats.steps ∧
    s.stats.jacobian_evals = 0 := by
  obtain ⟨e1, e2, -, e4, -, -, -, -, -, -, e11, -⟩ := Radau.build_fields hb
  have c : Radau.Counts s0 s := Steps.invariant (alg := Radau.alg) (I := Radau.Counts s0)
    (fun fuel a b ha hb => ha.trans (Radau.step_counts hb).1) (Radau.Counts.refl s0) h
  have c1 := c.budget
  have c2 := c.solves
  have c3 := c.points
  have c4 := c.jac
  have e : s0.opts.max_newt_iter = b.opts.max_newt_iter := by rw [e11]; rfl
  rw [e, e4] at c2
  rw [e4] at c1 c3 c4
  rw [e1] at c3
  simp only [Stats.new, List.length_singleton, Nat.mul_zero, Nat.zero_add] at c1 c2 c3 c4
  refine ⟨by omega, by omega, by omega, c4⟩

/-- **C32** The calls of user code actually made. Let `j` be the number of evaluations of the Jacobian (at
least one). With a user Jacobian there were `j` calls of it and `function_evals + 1` calls of the
right-hand side. Without, each evaluation of the Jacobian cost `n + 1` further calls of the right-hand side,
which are not counted. In both cases `jacobian_evals` is 0 (`C32_statistics_radau`). -/
theorem C32_user_calls_radau {b : Builder F n P} {s0 s : Radau.St F n P} {k : Nat}
    (hb : b.build Radau.alg = .ok s0) (h : Steps Radau.alg none k s0 s) :
    ∃ j, 1 ≤ j ∧
      (b.dfdu.isSome = true → jacCalls s.trace = j ∧ rhsCalls s.trace = s.stats.function_evals + 1) ∧
      (b.dfdu = none → jacCalls s.trace = 0 ∧
        rhsCalls s.trace = s.stats.function_evals + 1 + (n + 1) * j) := by
  have c : Radau.Calls b.dfdu.isSome s := Steps.invariant (alg := Radau.alg)
    (I := Radau.Calls b.dfdu.isSome) (fun fuel a b ha hb => ha.step hb) (Radau.Calls.build hb) h
  obtain ⟨j, hj, -, h2, h3⟩ := c
  refine ⟨j, hj, ?_, ?_⟩
  · intro hs; rw [h2, h3, hs]; simp
  · intro hs; rw [h2, h3, hs]; simp

/-! ### C17 -/

/-- What a rejected attempt must not change. -/
structure Untouched {C : Type} (s s' : Integ F n P C) : Prop where
  t : s'.t = s.t
  u : s'.u = s.u
  tprev : s'.tprev = s.tprev
  uprev : s'.uprev = s.uprev
  ts : s'.sol.ts = s.sol.ts
  us : s'.sol.us = s.sol.us
  accepts : s'.stats.accepts = s.stats.accepts
  opts : s'.opts = s.opts
  params : s'.params = s.params
  tfinal : s'.tfinal = s.tfinal
  tdir : s'.tdir = s.tdir

theorem Radau.Frame.untouched {s s' : Radau.St F n P} (h : Radau.Frame s s') : Untouched s s' :=
  ⟨h.t, h.u, h.tprev, h.uprev, h.ts, h.us, h.accepts, h.opts, h.params, h.tfinal, h.tdir⟩

/-- **C17** (DormandPrince5). A pass through the loop that sets `reject` (including the too-small test after
it). -/
theorem C17_rejected_attempt_dp5 {s s1 : DP5.St F n P} (h : DP5.attempt s = .ok s1)
    (hr : s1.cache.reject = true) : Untouched s (DP5.checkDtMin s1) := by
  rw [DP5.attempt_eq] at h
  split at h
  · split at h
    · simp at h
    · simp only [Res.ok.injEq] at h
      rw [← h, DP5.accepted_reject] at hr
      simp at hr
  · simp only [Res.ok.injEq] at h
    rw [← h]
    have f := DP5.Frame.retry s
    exact ⟨f.t, f.u, f.tprev, f.uprev, f.ts, f.us, f.accepts, f.opts, f.params, f.tfinal, f.tdir⟩

/-- **C17** (Radau5). The three ways an attempt can fail: a matrix cannot be decomposed, the Newton iteration
does not converge, the error estimate is not below 1. -/
theorem C17_rejected_attempt_radau (s : Radau.St F n P) :
    (∀ s', Radau.perform_decompositions s = .ok (s', false) → Untouched s s') ∧
    (∀ s', Radau.newton s = .ok (s', false) → Untouched s s') ∧
    (Fl.lt s.cache.err 1.0 = false → Untouched s (Radau.step_size_control s)) := by
  refine ⟨fun s' h => (Radau.Frame.perform h).untouched, fun s' h => (Radau.Frame.newton h).untouched, ?_⟩
  intro h
  have f : Radau.Frame s { s with cache := { s.cache with decompose := true } } := by constructor <;> rfl
  simp only [Radau.step_size_control]
  rw [if_neg (by simp [h])]
  exact (f.trans (Radau.Frame.rejectStep _ _)).untouched

/-! ### C45 -/

/-- **C45** (DormandPrince5). After a call, `tprev` and `uprev` are the time and state before the call … -/
theorem C45_previous_point_dp5 {s s' : DP5.St F n P} {o : Option Nat}
    (h : StepReturns DP5.alg none s o s') : s'.tprev = s.t ∧ s'.uprev = s.u := by
  obtain ⟨⟨fuel, h⟩, -⟩ := stepReturns_none_iff.1 h
  obtain ⟨j, s1, -, -, -, -, -, sp⟩ := DP5.step_spec h
  exact ⟨sp.tprev, sp.uprev⟩

/-- … so throughout a run they are the previous recorded point, `t` and `u` being the last one. -/
theorem C45_previous_recorded_point_dp5 {b : Builder F n P} {s0 s : DP5.St F n P} {k : Nat}
    (hb : b.build DP5.alg = .ok s0) (h : Steps DP5.alg none (k + 1) s0 s) :
    s.sol.ts[k]? = some s.tprev ∧ s.sol.us[k]? = some s.uprev ∧
    s.sol.ts[k + 1]? = some s.t ∧ s.sol.us[k + 1]? = some s.u := by
  have key : ∀ k s, Steps DP5.alg none k s0 s → s.sol.ts.length = k + 1 ∧ s.sol.us.length = k + 1 ∧
      s.sol.ts[k]? = some s.t ∧ s.sol.us[k]? = some s.u := by
    intro k s h
    obtain ⟨e1, e2, -, -, -, -, -, e8, e9, -⟩ := DP5.build_fields hb
    refine Steps.induct (alg := DP5.alg) (I := fun k s => s.sol.ts.length = k + 1 ∧
      s.sol.us.length = k + 1 ∧ s.sol.ts[k]? = some s.t ∧ s.sol.us[k]? = some s.u) ?_ ?_ h
    · rw [e1, e2, e8, e9]; exact ⟨rfl, rfl, rfl, rfl⟩
    · intro k s o s' ⟨a1, a2, a3, a4⟩ h
      have := C07_one_point_per_step_dp5 h
      rw [this.1, this.2.1]
      exact ⟨by simp [a1], by simp [a2], by rw [← a1]; simp, by rw [← a2]; simp⟩
  obtain ⟨s1, o, h1, h2⟩ := h.cases_snoc
  obtain ⟨a1, a2, a3, a4⟩ := key k s1 h1
  obtain ⟨-, -, b3, b4⟩ := key (k + 1) s (.succ h1 h2)
  have c := C07_one_point_per_step_dp5 h2
  have p := C45_previous_point_dp5 h2
  refine ⟨?_, ?_, b3, b4⟩
  · rw [c.1, List.getElem?_append_left (by omega), a3, p.1]
  · rw [c.2.1, List.getElem?_append_left (by omega), a4, p.2]

/-- **C45** (Radau5). `uprev` keeps its initial value for ever … -/
theorem C45_uprev_stale_radau {b : Builder F n P} {s0 s : Radau.St F n P} {k : Nat}
    (hb : b.build Radau.alg = .ok s0) (h : Steps Radau.alg none k s0 s) : s.uprev = b.u := by
  have e := (Radau.build_fields hb).2.2.2.2.2.2.2.2.2.1
  rw [← e]
  exact Steps.invariant (alg := Radau.alg) (I := fun s => s.uprev = s0.uprev)
    (fun fuel a b ha hb => (Radau.step_uprev hb).trans ha) rfl h

/-- … while `tprev` is the previous recorded time: after `k + 1` calls that returned `Some`. -/
theorem C45_tprev_radau {b : Builder F n P} {s0 s : Radau.St F n P} {k : Nat}
    (hb : b.build Radau.alg = .ok s0) (h : SomeSteps Radau.alg none (k + 1) s0 s) :
    s.sol.ts[k]? = some s.tprev ∧ s.sol.ts[k + 1]? = some s.t := by
  have key : ∀ k s, SomeSteps Radau.alg none k s0 s → Radau.Ready s ∧ s.sol.ts.length = k + 1 ∧
      s.sol.ts[k]? = some s.t ∧ ∀ j, k = j + 1 → s.sol.ts[j]? = some s.tprev := by
    intro k s h
    obtain ⟨e1, -, -, -, -, -, e7, -⟩ := Radau.build_fields hb
    refine SomeSteps.induct (alg := Radau.alg) (I := fun k s => Radau.Ready s ∧
      s.sol.ts.length = k + 1 ∧ s.sol.ts[k]? = some s.t ∧ ∀ j, k = j + 1 → s.sol.ts[j]? = some s.tprev)
      ?_ ?_ h
    · rw [e1, e7]; exact ⟨Radau.build_ready hb, rfl, rfl, by omega⟩
    · intro k s i s' ⟨a1, a2, a3, _⟩ h
      obtain ⟨⟨fuel, h⟩, ho⟩ := stepReturns_none_iff.1 h
      have hc : s'.sol.retcode = RetCode.Continue := by
        apply Decidable.byContradiction; intro hc; rw [if_neg hc] at ho; simp at ho
      refine ⟨a1.step h hc, ?_⟩
      obtain ⟨-, h | h⟩ := Radau.step_cases a1 h
      · rw [h.ts, h.tprev]
        refine ⟨by simp [a2], by rw [← a2]; simp, ?_⟩
        intro j hj
        obtain rfl : k = j := by omega
        rw [List.getElem?_append_left (by omega), a3]
      · have := h.retcode
        simp [hc] at this
  obtain ⟨-, -, h1, h2⟩ := key _ _ h
  exact ⟨h2 k rfl, h1⟩

/-! ### C49 -/

/-- **C49** A call with callback `f` is the call without callback followed by one application of `f`; the value
returned depends on the state after `f`. `applyCallback` only says that `f` cannot change the private
fields. -/
theorem C49_callback_runs_after_step (alg : Algorithm F n P) (f : Callback alg)
    (s s' : Integ F n P alg.Cache) (o : Option Nat) :
    StepReturns alg (some f) s o s' ↔ ∃ o1 s1, StepReturns alg none s o1 s1 ∧
      s' = applyCallback alg f s1 ∧ o = if s'.sol.retcode = .Continue then some s'.stats.steps else none := by
  constructor
  · intro h
    obtain ⟨fuel, s1, h1, h2, h3⟩ := stepReturns_iff.1 h
    exact ⟨_, s1, stepReturns_none_iff.2 ⟨⟨fuel, h1⟩, rfl⟩, h2, h3⟩
  · rintro ⟨o1, s1, h1, h2, h3⟩
    obtain ⟨⟨fuel, h1⟩, -⟩ := stepReturns_none_iff.1 h1
    exact stepReturns_iff.2 ⟨fuel, s1, h1, h2, h3⟩

/-- **C49** With a callback that does not touch `sol`, the point DormandPrince5 records in a call is the value of
`t` and `u` before the callback. -/
theorem C49_recorded_before_callback_dp5 {f : Callback (DP5.alg : Algorithm F n P)}
    (hf : ∀ s, (f s).sol = s.sol) {s s' : DP5.St F n P} {o : Option Nat}
    (h : StepReturns DP5.alg (some f) s o s') : ∃ s1 o1, StepReturns DP5.alg none s o1 s1 ∧
      s'.t = (f s1).t ∧ s'.u = (f s1).u ∧
      s'.sol.ts = s.sol.ts ++ [s1.t] ∧ s'.sol.us = s.sol.us ++ [s1.u] := by
  obtain ⟨o1, s1, h1, h2, -⟩ := (C49_callback_runs_after_step DP5.alg f s s' o).1 h
  have c := C07_one_point_per_step_dp5 h1
  refine ⟨s1, o1, h1, by rw [h2]; rfl, by rw [h2]; rfl, ?_, ?_⟩
  · rw [h2, ← c.1, ← hf s1]; rfl
  · rw [h2, ← c.2.1, ← hf s1]; rfl

/-- A callback that sets `u` to zero: the recorded point is still the one computed by the step. -/
example : ∃ (s0 s' : DP5.St X 1 Unit) (o : Option Nat), (DP5.sampleBuilder 1.1e-6).build DP5.alg = .ok s0 ∧
    StepReturns DP5.alg (some fun s => { s with u := fun _ => X.fin 5 }) s0 o s' ∧
    s'.sol.ts = [X.fin 0, X.fin 1e-6] ∧ s'.u = fun _ => X.fin 5 := by
  obtain ⟨s0, s1, -, hb, h1, -, -, -, t1, -⟩ := DP5.sample_run
  refine ⟨s0, _, _, hb, (C49_callback_runs_after_step DP5.alg _ s0 _ _).2 ⟨_, s1, h1, rfl, rfl⟩, ?_, rfl⟩
  have := (C07_one_point_per_step_dp5 h1).1
  rw [(DP5.build_fields hb).1, t1] at this
  exact this

/-! ### C53 -/

/-- **C53** With `max_newt_iter = 0` Radau5 never accepts a step: after any number of calls only the initial
point is recorded, and after at least one call the code is an error code. -/
theorem C53_no_newton_iterations_radau {b : Builder F n P} {s0 s : Radau.St F n P} {k : Nat}
    (hb : b.build Radau.alg = .ok s0) (hm : b.opts.max_newt_iter = 0)
    (h : Steps Radau.alg none k s0 s) :
    s.sol.ts = [b.t] ∧ s.sol.us = [b.u] ∧ s.stats.accepts = 0 ∧ (k ≠ 0 →
      s.sol.retcode = .MaxIters ∨ s.sol.retcode = .DtLessThanMin ∨ s.sol.retcode = .SingularMatrix) := by
  obtain ⟨e1, e2, e3, e4, -, -, -, -, -, -, e11, -⟩ := Radau.build_fields hb
  have e : s0.opts.max_newt_iter = 0 := by rw [e11]; exact hm
  have := Steps.induct (alg := Radau.alg) (I := fun k s => s.opts.max_newt_iter = 0 ∧
    s.sol.ts = [b.t] ∧ s.sol.us = [b.u] ∧ s.stats.accepts = 0 ∧
    (if k = 0 then s.sol.retcode = .Continue else s.sol.retcode = .MaxIters ∨
      s.sol.retcode = .DtLessThanMin ∨ s.sol.retcode = .SingularMatrix)) ?_ ?_ h
  · obtain ⟨-, h1, h2, h3, h4⟩ := this
    exact ⟨h1, h2, h3, fun hk => by rwa [if_neg hk] at h4⟩
  · rw [e4]; exact ⟨e, e1, e2, rfl, e3⟩
  · intro k s o s' ⟨i0, i1, i2, i3, i4⟩ h
    obtain ⟨⟨fuel, h⟩, -⟩ := stepReturns_none_iff.1 h
    obtain ⟨f, c⟩ := Radau.step_no_newton i0 h
    refine ⟨by rw [f.opts, i0], by rw [f.ts, i1], by rw [f.us, i2], by rw [f.accepts, i3], ?_⟩
    rw [if_neg (Nat.succ_ne_zero k)]
    obtain c | c | c | ⟨c1, c2⟩ := c
    · exact .inl c
    · exact .inr (.inl c)
    · exact .inr (.inr c)
    · rw [c2]
      split at i4
      · rw [c2] at c1; exact absurd i4 c1
      · exact i4

/-- Such runs exist for every problem of positive dimension, and `integrate()` terminates. -/
theorem C53_integrate_radau (hn : n ≠ 0) {b : Builder F n P} {s0 : Radau.St F n P}
    (hb : b.build Radau.alg = .ok s0) (hm : b.opts.max_newt_iter = 0) :
    ∃ s, IntegrateReturns Radau.alg none s0 s ∧ s.sol.ts = [b.t] ∧ (s.sol.retcode = .MaxIters ∨
      s.sol.retcode = .DtLessThanMin ∨ s.sol.retcode = .SingularMatrix) := by
  obtain ⟨s, hs⟩ := C12_integrate_terminates_radau hn s0
  have hi : IntegrateReturns Radau.alg none s0 s := ⟨_, hs⟩
  obtain ⟨k, s1, h1, h2⟩ := (C05_integrate_radau none s0 s).1.1 hi
  have := C53_no_newton_iterations_radau hb hm (.succ h1.steps h2)
  exact ⟨s, hi, this.1, this.2.2.2 (Nat.succ_ne_zero k)⟩

end
end Cyphus
