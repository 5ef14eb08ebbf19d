import Verif.Proofs.DP5
/-!
# What a `DormandPrince5` step does (any arithmetic)
-/

namespace Cyphus
namespace DP5
set_option linter.unusedSectionVars false
variable {F : Type} {n : Nat} {P : Type}
  [Add F] [Sub F] [Mul F] [Div F] [Neg F] [OfScientific F] [Fl F]

structure RejsSpec (k : Nat) (s s' : St F n P) : Prop where
  frame : Frame s s'
  function_evals : s'.stats.function_evals = s.stats.function_evals + 6 * k
  rejects : s'.stats.rejects = s.stats.rejects + if s.stats.accepts ≥ 1 then k else 0
  jacobian_evals : s'.stats.jacobian_evals = s.stats.jacobian_evals
  decompositions : s'.stats.decompositions = s.stats.decompositions
  linear_solves : s'.stats.linear_solves = s.stats.linear_solves
  retcode : s'.sol.retcode = s.sol.retcode ∨ s'.sol.retcode = .DtLessThanMin
  trace : ∃ l, s'.trace = s.trace ++ l ∧ l.length = 6 * k ∧ rhsCalls l = 6 * k

theorem compute_stages_trace (s : St F n P) :
    ∃ l, (compute_stages s).trace = s.trace ++ l ∧ l.length = 6 ∧ rhsCalls l = 6 :=
  ⟨_, rfl, rfl, by simp [rhsCalls]⟩

theorem Rejs.spec {k : Nat} {s s' : St F n P} (h : Rejs k s s') : RejsSpec k s s' := by
  induction h with
  | zero s => exact ⟨.refl s, by simp, by simp, rfl, rfl, rfl, .inl rfl, [], by simp [rhsCalls]⟩
  | @succ k s s' h1 h2 ih =>
    refine ⟨(Frame.retry s).trans ih.frame, ?_, ?_, ?_, ?_, ?_, ?_, ?_⟩
    · rw [ih.function_evals]; simp; omega
    · rw [ih.rejects]; simp only [retry_stats]; split <;> omega
    · rw [ih.jacobian_evals]; simp
    · rw [ih.decompositions]; simp
    · rw [ih.linear_solves]; simp
    · obtain h | h := ih.retcode
      · rw [h, retry_retcode]; split <;> simp
      · exact .inr h
    · obtain ⟨l, e, hl, hr⟩ := ih.trace
      obtain ⟨l', e', hl', hr'⟩ := compute_stages_trace s
      refine ⟨l' ++ l, ?_, by simp [hl, hl']; omega, ?_⟩
      · rw [e, retry_trace, e', List.append_assoc]
      · rw [rhsCalls, List.countP_append]
        rw [rhsCalls] at hr hr'
        omega

/-- What a step with `k` rejected attempts does. -/
structure StepSpec (k : Nat) (s s' : St F n P) : Prop where
  dudt : s'.dudt = s.dudt
  dfdt : s'.dfdt = s.dfdt
  dfdu : s'.dfdu = s.dfdu
  params : s'.params = s.params
  tdir : s'.tdir = s.tdir
  tfinal : s'.tfinal = s.tfinal
  opts : s'.opts = s.opts
  ts : s'.sol.ts = s.sol.ts ++ [s'.t]
  us : s'.sol.us = s.sol.us ++ [s'.u]
  tprev : s'.tprev = s.t
  uprev : s'.uprev = s.u
  steps : s'.stats.steps = s.stats.steps + 1
  accepts : s'.stats.accepts = s.stats.accepts + 1
  function_evals : s'.stats.function_evals = s.stats.function_evals + 6 * (k + 1)
  rejects : s'.stats.rejects = s.stats.rejects + if s.stats.accepts ≥ 1 then k else 0
  jacobian_evals : s'.stats.jacobian_evals = s.stats.jacobian_evals
  decompositions : s'.stats.decompositions = s.stats.decompositions
  linear_solves : s'.stats.linear_solves = s.stats.linear_solves
  trace : ∃ l, s'.trace = s.trace ++ l ∧ l.length = 6 * (k + 1) ∧ rhsCalls l = 6 * (k + 1)
  retcode : s'.sol.retcode = .Success ∨ s'.sol.retcode = .MaxIters ∨
    s'.sol.retcode = .DtLessThanMin ∨ s'.sol.retcode = s.sol.retcode
  limit : s'.stats.steps > s.opts.max_steps → s'.sol.retcode = .Success ∨ s'.sol.retcode = .MaxIters
  reject : s'.cache.reject = false
  code : ∃ c, (c = s.sol.retcode ∨ (k ≠ 0 ∧ c = .DtLessThanMin)) ∧ s'.sol.retcode =
    if s'.cache.last then .Success else if s'.stats.steps > s.opts.max_steps then .MaxIters else c

theorem clampLast_stats (s : St F n P) : (clampLast s).stats = s.stats ∧ (clampLast s).sol = s.sol ∧
    (clampLast s).trace = s.trace ∧ (clampLast s).cache.reject = s.cache.reject := by
  simp only [clampLast]; split <;> exact ⟨rfl, rfl, rfl, rfl⟩

theorem step_spec {fuel : Nat} {s s' : St F n P} (h : step fuel s = .ok s') :
    ∃ k s1, k < fuel ∧ Rejs k (clampLast s) s1 ∧ Fl.le (errOf s1) 1.0 = true ∧
      s1.opts.max_stiff ≠ 0 ∧ s' = finishStep (accepted s1) ∧ StepSpec k s s' := by
  obtain ⟨k, s1, hk, hr, he, hm, rfl⟩ := step_ok.1 h
  refine ⟨k, s1, hk, hr, he, hm, rfl, ?_⟩
  have sp := hr.spec
  have f := (Frame.clampLast s).trans sp.frame
  have c := clampLast_stats s
  constructor
  · simp [f.dudt]
  · simp [f.dfdt]
  · simp [f.dfdu]
  · simp [f.params]
  · simp [f.tdir]
  · simp [f.tfinal]
  · simp [f.opts]
  · simp [f.ts]
  · simp [f.us]
  · simp [f.t]
  · simp [f.u]
  · simp [f.steps]
  · simp [f.accepts]
  · simp [sp.function_evals, c]; omega
  · simp [sp.rejects, c]
  · simp [sp.jacobian_evals, c]
  · simp [sp.decompositions, c]
  · simp [sp.linear_solves, c]
  · obtain ⟨l, e, hl, hc⟩ := sp.trace
    obtain ⟨l', e', hl', hc'⟩ := compute_stages_trace s1
    refine ⟨l ++ l', ?_, by simp [hl, hl']; omega, ?_⟩
    · simp [e', e, c]
    · rw [rhsCalls, List.countP_append]
      rw [rhsCalls] at hc hc'
      omega
  · rw [finishStep_retcode, accepted_sol]
    have := sp.retcode
    rw [c.2.1] at this
    split
    · exact .inl rfl
    · split
      · exact .inr (.inl rfl)
      · exact .inr (.inr this.symm)
  · intro hg
    simp only [finishStep_stats, accepted_stats] at hg
    rw [finishStep_retcode]
    split
    · exact .inl rfl
    · rw [accepted_stats, accepted_opts, f.opts, if_pos hg]; exact .inr rfl
  · simp
  · refine ⟨s1.sol.retcode, ?_, ?_⟩
    · cases hr with
      | zero => rw [c.2.1]; exact .inl rfl
      | succ =>
        have := sp.retcode
        rw [c.2.1] at this
        exact this.imp_right fun h => ⟨by omega, h⟩
    · rw [finishStep_retcode, finishStep_cache, finishStep_stats, accepted_stats, accepted_opts, accepted_sol,
        f.opts]

end DP5
end Cyphus
