import Verif.Proofs.RunInv
/-!
# Counters and termination of `Radau5` (any arithmetic)
-/

namespace Cyphus
namespace Radau
set_option linter.unusedSectionVars false
set_option autoImplicit false
variable {F : Type} {n : Nat} {P : Type}
  [Add F] [Sub F] [Mul F] [Div F] [Neg F] [OfScientific F] [Fl F]

/-! ### Counters -/

/-- The decompositions change no counter but their own. -/
theorem perform_stats {s s' : St F n P} {b : Bool} (h : perform_decompositions s = .ok (s', b)) :
    ∃ d, s'.stats = { s.stats with decompositions := d } := by
  have hf : ∀ s : St F n P, (decFail s).stats = s.stats := by
    intro s
    simp only [decFail, halveStep]
    split
    · rfl
    · split <;> rfl
  obtain ⟨-, s1, s2, h1, h2, rfl⟩ | ⟨hb, s1, rfl, ⟨ier, h1⟩ | ⟨s0, ier, h1, h2⟩⟩ := perform_ok h
  · obtain ⟨r, -, rfl⟩ := decomp_real_ok h1
    obtain ⟨r, -, rfl⟩ := decomp_complex_ok h2
    exact ⟨_, rfl⟩
  · obtain ⟨r, -, rfl⟩ := decomp_real_ok h1
    exact ⟨s.stats.decompositions, by rw [hf]; rfl⟩
  · obtain ⟨r, -, rfl⟩ := decomp_real_ok h1
    obtain ⟨r', -, rfl⟩ := decomp_complex_ok h2
    exact ⟨s.stats.decompositions, by rw [hf]; rfl⟩

theorem decLoop_stats {fuel : Nat} {s s' : St F n P} {b : Bool} (h : decLoop fuel s = .ok (s', b)) :
    ∃ d, s'.stats = { s.stats with decompositions := d } := by
  induction fuel generalizing s with
  | zero => simp [decLoop] at h
  | succ f ih =>
    rw [decLoop, Res.bind_eq_ok] at h
    obtain ⟨⟨s1, b1⟩, h1, h2⟩ := h
    obtain ⟨d, hd⟩ := perform_stats h1
    simp only at h2
    split at h2
    · simp only [Res.ok.injEq, Prod.mk.injEq] at h2
      exact ⟨d, h2.1 ▸ hd⟩
    · split at h2
      · simp only [Res.ok.injEq, Prod.mk.injEq] at h2
        exact ⟨d, h2.1 ▸ hd⟩
      · obtain ⟨d', hd'⟩ := ih h2
        exact ⟨d', by rw [hd', hd]⟩

theorem decPhase_stats {fuel : Nat} {s s' : St F n P} {b : Bool} (h : decPhase fuel s = .ok (s', b)) :
    ∃ d, s'.stats = { s.stats with decompositions := d } := by
  unfold decPhase at h
  split at h
  · exact decLoop_stats h
  · simp only [Res.ok.injEq, Prod.mk.injEq] at h
    exact ⟨s.stats.decompositions, by rw [h.1]⟩

/-- The Newton iteration makes at most `max_newt_iter` linear solves. -/
theorem newtonLoop_solves {fuel : Nat} {s s' : St F n P} {d : F} {b : Bool}
    (h : newtonLoop fuel s d = .ok (s', b)) :
    s.stats.linear_solves ≤ s'.stats.linear_solves ∧
    s'.stats.linear_solves ≤ s.stats.linear_solves + (s.opts.max_newt_iter - s.cache.newt) := by
  induction fuel generalizing s d with
  | zero => simp [newtonLoop] at h
  | succ f ih =>
    simp only [newtonLoop] at h
    split at h
    · simp only [Res.ok.injEq, Prod.mk.injEq] at h
      rw [← h.1, (halveStep_sol s).2]
      omega
    · rename_i hlt
      have h1 := newtonCheck_sol (newtonSolve (newtonRhs s)) (newtonNorm (newtonSolve (newtonRhs s))) d
      have h2 := newtonCheck_newt (newtonSolve (newtonRhs s)) (newtonNorm (newtonSolve (newtonRhs s))) d
      have h3 := newtonCheck_opts (newtonSolve (newtonRhs s)) (newtonNorm (newtonSolve (newtonRhs s))) d
      have h4 : (newtonSolve (newtonRhs s)).stats.linear_solves = s.stats.linear_solves + 1 := rfl
      have h5 : (newtonSolve (newtonRhs s)).cache.newt = s.cache.newt + 1 := rfl
      have h6 : (newtonSolve (newtonRhs s)).opts = s.opts := rfl
      split at h
      · simp only [Res.ok.injEq, Prod.mk.injEq] at h
        rw [← h.1, h1.2, h4]
        omega
      · split at h
        · simp only [Res.ok.injEq, Prod.mk.injEq] at h
          rw [← h.1]
          simp only [newtonUpdate, h1.2, h4]
          omega
        · have := ih h
          simp only [newtonUpdate, h1.2, h2, h3, h4, h5, h6] at this
          omega

theorem newton_solves {s s' : St F n P} {b : Bool} (h : newton s = .ok (s', b)) :
    s.stats.linear_solves ≤ s'.stats.linear_solves ∧
    s'.stats.linear_solves ≤ s.stats.linear_solves + s.opts.max_newt_iter := by
  rw [newton_eq] at h
  have := newtonLoop_solves h
  have h0 : (newtonInit s).stats = s.stats := by
    simp only [newtonInit, prepare_newton]
    split <;> rfl
  have h1 : (newtonInit s).opts = s.opts := (Frame.newtonInit s).opts
  rw [h0, h1] at this
  omega

/-- What any attempt does to the counters and to the history, in any state. -/
structure Counts (s s' : St F n P) : Prop where
  opts : s'.opts = s.opts
  steps : s.stats.steps ≤ s'.stats.steps
  budget : s'.stats.accepts + s'.stats.rejects + s.stats.steps ≤
    s.stats.accepts + s.stats.rejects + s'.stats.steps
  solves : s'.stats.linear_solves + s.opts.max_newt_iter * s.stats.steps ≤
    s.stats.linear_solves + s.opts.max_newt_iter * s'.stats.steps
  jac : s'.stats.jacobian_evals = s.stats.jacobian_evals
  accepts : s.stats.accepts ≤ s'.stats.accepts
  points : s'.sol.ts.length + s.stats.accepts = s.sol.ts.length + s'.stats.accepts

theorem Counts.refl (s : St F n P) : Counts s s :=
  ⟨rfl, Nat.le_refl _, Nat.le_refl _, Nat.le_refl _, rfl, Nat.le_refl _, rfl⟩

theorem Counts.trans {a b c : St F n P} (h : Counts a b) (g : Counts b c) : Counts a c where
  opts := g.opts.trans h.opts
  steps := Nat.le_trans h.steps g.steps
  budget := by have := h.budget; have := g.budget; omega
  solves := by have := h.solves; have := g.solves; rw [h.opts] at this; omega
  jac := g.jac.trans h.jac
  accepts := Nat.le_trans h.accepts g.accepts
  points := by have := h.points; have := g.points; omega

theorem Counts.control {s s1 s2 : St F n P} {fuel : Nat} (h1 : decPhase fuel s = .ok (s1, true))
    (h4 : newton (tick s1) = .ok (s2, true)) : Counts s (control s2) := by
  obtain ⟨d, hd⟩ := decPhase_stats h1
  have f1 := Frame.decPhase h1
  have f2 := Frame.newton h4
  have n1 := newton_sol h4
  have n2 := newton_solves h4
  have e1 := Frame.decided s2
  have e2 := error_estimate_sol s2
  have f := (f1.trans ((Frame.tick _).trans f2)).trans e1
  have t1 : (tick s1).stats = { s1.stats with steps := s1.stats.steps + 1 } := rfl
  have t2 : (tick s1).opts = s1.opts := rfl
  rw [t1, t2, hd, f1.opts] at n2
  rw [t1, hd] at n1
  dsimp only at n1 n2
  have hst : (decided s2).stats.steps = s.stats.steps + 1 := by rw [decided_steps, n1.2.1]
  have hre : (decided s2).stats.rejects = s.stats.rejects := by rw [decided_rejects, n1.2.2.1]
  have hls : (decided s2).stats.linear_solves = s2.stats.linear_solves := e2.2.2.2.2.2.1
  rw [control_eq]
  split
  · have a := acceptStep_fields (decided s2) (stepQuot (decided s2))
    simp only at a
    obtain ⟨-, -, -, -, -, -, -, -, -, -, -, a12, a13, -, -, a16, a17, a18, a19, -, a21, -⟩ := a
    constructor
    · rw [a12, f.opts]
    · rw [a17, hst]; omega
    · rw [a16, a17, a18, hst, hre, f.accepts]; omega
    · rw [a17, a21, hst, hls, Nat.mul_add]; omega
    · rw [a19, f.jacobian_evals]
    · rw [a16, f.accepts]; omega
    · rw [a13, a16, f.ts, f.accepts]; simp; omega
  · have r := rejectStep_fields (decided s2) (stepQuot (decided s2))
    have rf := f.trans (Frame.rejectStep (decided s2) (stepQuot (decided s2)))
    obtain ⟨-, r2, -, -, -, r6, -, r8, -⟩ := r
    constructor
    · rw [rf.opts]
    · rw [r2, hst]; omega
    · rw [r2, r6, hst, hre, rf.accepts]; split <;> omega
    · rw [r2, r8, hst, hls, Nat.mul_add]; omega
    · rw [rf.jacobian_evals]
    · rw [rf.accepts]; exact Nat.le_refl _
    · rw [rf.ts, rf.accepts]

theorem Att.counts {s s' : St F n P} (h : Att s s') :
    Counts s s' ∧ s'.stats.steps = s.stats.steps + 1 ∧ s.stats.steps + 1 < s.opts.max_steps := by
  cases h with
  | @diverged s1 s2 fuel h1 h2 h3 h4 =>
    obtain ⟨d, hd⟩ := decPhase_stats h1
    have f1 := Frame.decPhase h1
    have f := (f1.trans ((Frame.tick _).trans (Frame.newton h4)))
    have n1 := newton_sol h4
    have n2 := newton_solves h4
    have t1 : (tick s1).stats = { s1.stats with steps := s1.stats.steps + 1 } := rfl
    have t2 : (tick s1).opts = s1.opts := rfl
    rw [t1, t2, hd, f1.opts] at n2
    rw [t1, hd] at n1
    rw [hd, f1.opts] at h2
    dsimp only at n1 n2 h2
    refine ⟨?_, n1.2.1, h2⟩
    constructor
    · exact f.opts
    · omega
    · rw [f.accepts]; omega
    · rw [n1.2.1, Nat.mul_add]; omega
    · exact f.jacobian_evals
    · rw [f.accepts]; exact Nat.le_refl _
    · rw [f.ts, f.accepts]
  | @again s1 s2 fuel h1 h2 h3 h4 h5 =>
    obtain ⟨d, hd⟩ := decPhase_stats h1
    have f1 := Frame.decPhase h1
    rw [hd, f1.opts] at h2
    refine ⟨Counts.control h1 h4, ?_, h2⟩
    have n1 := newton_sol h4
    have hst : (decided s2).stats.steps = s.stats.steps + 1 := by
      rw [decided_steps, n1.2.1]; simp [tick, hd]
    rw [control_eq]
    split
    · have a := acceptStep_fields (decided s2) (stepQuot (decided s2))
      simp only at a
      obtain ⟨-, -, -, -, -, -, -, -, -, -, -, -, -, -, -, -, a17, -⟩ := a
      rw [a17, hst]
    · rw [(rejectStep_fields _ _).2.1, hst]

theorem Fin.counts {s s' : St F n P} (h : Fin s s') :
    Counts s s' ∧ s'.stats.steps ≤ max (s.stats.steps + 1) s.opts.max_steps ∧
      (s'.sol.retcode = .Continue → s.stats.steps < s'.stats.steps ∧
        s'.stats.steps < s.opts.max_steps) := by
  cases h with
  | @singular s1 fuel h1 =>
    obtain ⟨d, hd⟩ := decPhase_stats h1
    have f := Frame.decPhase h1
    have r1 := decPhase_retcode h1
    simp at r1
    refine ⟨⟨f.opts, by rw [hd]; exact Nat.le_refl _, by rw [hd]; exact Nat.le_refl _,
      by rw [hd]; exact Nat.le_refl _, f.jacobian_evals,
      by rw [f.accepts]; exact Nat.le_refl _, by rw [f.ts, f.accepts]⟩, by simp only [hd]; omega,
      fun h => absurd h r1.1⟩
  | @maxIters s1 fuel h1 h2 =>
    obtain ⟨d, hd⟩ := decPhase_stats h1
    have f := Frame.decPhase h1
    have hs : (setCode .MaxIters (tick s1)).stats = { s.stats with decompositions := d, steps := s.stats.steps + 1 } := by
      simp only [setCode, tick, hd]
    refine ⟨⟨f.opts, by rw [hs]; dsimp only; omega, by rw [hs]; dsimp only; omega,
      by rw [hs]; simp only [Nat.mul_add]; omega, by rw [hs],
      by rw [hs]; exact Nat.le_refl _, by rw [hs]; simp [setCode, tick, f.ts]⟩, by rw [hs]; dsimp only; omega,
      fun h => by simp [setCode] at h⟩
  | @small s1 fuel h1 h2 h3 =>
    obtain ⟨d, hd⟩ := decPhase_stats h1
    have f := Frame.decPhase h1
    have hs : (setCode .DtLessThanMin (tick s1)).stats = { s.stats with decompositions := d, steps := s.stats.steps + 1 } := by
      simp only [setCode, tick, hd]
    refine ⟨⟨f.opts, by rw [hs]; dsimp only; omega, by rw [hs]; dsimp only; omega,
      by rw [hs]; simp only [Nat.mul_add]; omega, by rw [hs],
      by rw [hs]; exact Nat.le_refl _, by rw [hs]; simp [setCode, tick, f.ts]⟩, by rw [hs]; dsimp only; omega,
      fun h => by simp [setCode] at h⟩
  | @done s1 s2 fuel h1 h2 h3 h4 h5 =>
    obtain ⟨d, hd⟩ := decPhase_stats h1
    have f1 := Frame.decPhase h1
    rw [hd, f1.opts] at h2
    dsimp only at h2
    have n1 := newton_sol h4
    have hst : (decided s2).stats.steps = s.stats.steps + 1 := by
      rw [decided_steps, n1.2.1]; simp [tick, hd]
    have hst' : (control s2).stats.steps = s.stats.steps + 1 := by
      rw [control_eq]
      split
      · have a := acceptStep_fields (decided s2) (stepQuot (decided s2))
        simp only at a
        obtain ⟨-, -, -, -, -, -, -, -, -, -, -, -, -, -, -, -, a17, -⟩ := a
        rw [a17, hst]
      · rw [(rejectStep_fields _ _).2.1, hst]
    exact ⟨Counts.control h1 h4, by rw [hst']; omega, fun _ => by rw [hst']; omega⟩

theorem Atts.counts {k : Nat} {s s' : St F n P} (h : Atts k s s') :
    Counts s s' ∧ s'.stats.steps = s.stats.steps + k ∧ (k = 0 ∨ s.stats.steps + k < s.opts.max_steps) := by
  induction h with
  | zero s => exact ⟨.refl s, rfl, .inl rfl⟩
  | succ h1 _ ih =>
    have a := h1.counts
    refine ⟨a.1.trans ih.1, by rw [ih.2.1, a.2.1]; omega, .inr ?_⟩
    have := ih.2.2
    rw [a.1.opts, a.2.1] at this
    omega

theorem Counts.clampLast (s : St F n P) : Counts s (clampLast s) := by
  simp only [Radau.clampLast]
  split
  · exact ⟨rfl, Nat.le_refl _, Nat.le_refl _, Nat.le_refl _, rfl, Nat.le_refl _, rfl⟩
  · exact .refl s

/-- What any call of `step` does to the counters, in any state. -/
theorem step_counts {fuel : Nat} {s s' : St F n P} (h : step fuel s = .ok s') :
    Counts s s' ∧ s'.stats.steps ≤ max (s.stats.steps + 1) s.opts.max_steps ∧
      (s'.sol.retcode = .Continue → s.stats.steps < s'.stats.steps ∧
        s'.stats.steps < s.opts.max_steps) := by
  obtain ⟨k, s1, -, ha, hf⟩ := step_ok h
  have c0 := clampLast_fields s
  have cc := Counts.clampLast s
  obtain ⟨a1, a2, a3⟩ := ha.counts
  obtain ⟨f1, f2, f3⟩ := hf.counts
  rw [c0.2.2.1] at a2 a3
  rw [a1.opts, cc.opts, a2] at f2 f3
  rw [cc.opts] at a3
  refine ⟨(cc.trans a1).trans f1, by omega, fun h => ?_⟩
  have := f3 h
  omega

/-- Rejected attempts are only ever added. -/
theorem step_rejects {fuel : Nat} {s s' : St F n P} (h : step fuel s = .ok s') :
    s.stats.rejects ≤ s'.stats.rejects := by
  have kd : ∀ {s s1 : St F n P} {b : Bool} {fuel : Nat}, decPhase fuel s = .ok (s1, b) →
      s1.stats.rejects = s.stats.rejects := by
    intro s s1 b fuel h
    obtain ⟨d, hd⟩ := decPhase_stats h
    rw [hd]
  have kc : ∀ s : St F n P, s.stats.rejects ≤ (control s).stats.rejects := by
    intro s
    rw [control_eq]
    split
    · have a := acceptStep_fields (decided s) (stepQuot (decided s))
      simp only at a
      obtain ⟨-, -, -, -, -, -, -, -, -, -, -, -, -, -, -, -, -, a18, -⟩ := a
      rw [a18, decided_rejects]; exact Nat.le_refl _
    · rw [(rejectStep_fields _ _).2.2.2.2.2.1, decided_rejects]; split <;> omega
  have ka : ∀ {s s' : St F n P}, Att s s' → s.stats.rejects ≤ s'.stats.rejects := by
    intro s s' h
    cases h with
    | diverged h1 _ _ h4 => rw [(newton_sol h4).2.2.1]; simp [tick, kd h1]
    | again h1 _ _ h4 _ =>
      refine Nat.le_trans ?_ (kc _)
      rw [(newton_sol h4).2.2.1]; simp [tick, kd h1]
  have kf : ∀ {s s' : St F n P}, Fin s s' → s.stats.rejects ≤ s'.stats.rejects := by
    intro s s' h
    cases h with
    | singular h1 => rw [kd h1]; exact Nat.le_refl _
    | maxIters h1 => simp [setCode, tick, kd h1]
    | small h1 => simp [setCode, tick, kd h1]
    | done h1 _ _ h4 _ =>
      refine Nat.le_trans ?_ (kc _)
      rw [(newton_sol h4).2.2.1]; simp [tick, kd h1]
  obtain ⟨k, s1, -, ha, hf⟩ := step_ok h
  refine Nat.le_trans ?_ (kf hf)
  have h0 : (clampLast s).stats.rejects = s.stats.rejects := by rw [(clampLast_fields s).2.2.1]
  rw [← h0]
  clear hf h0
  generalize clampLast s = s0 at ha
  induction ha with
  | zero => exact Nat.le_refl _
  | succ h1 _ ih => exact Nat.le_trans (ka h1) ih

/-- A step that accepts leaves the attempt counter below the limit. -/
theorem step_accept_limit {fuel : Nat} {s s' : St F n P} (hr : Ready s) (h : step fuel s = .ok s')
    (ha : s'.stats.accepts ≠ s.stats.accepts) : s'.stats.steps < s.opts.max_steps := by
  obtain ⟨k, s1, -, hs, ⟨d, hd⟩ | hf⟩ := step_spec hr.reject h
  · have a := acceptStep_fields d (stepQuot d)
    simp only at a
    obtain ⟨-, -, -, -, -, -, -, -, -, -, -, -, -, -, -, -, a17, -⟩ := a
    rw [hd.eq, a17, hd.steps]
    have := hd.limit
    rw [hs.frame.opts, (Frame.clampLast s).opts] at this
    exact this
  · exact absurd ((Frame.clampLast s).trans (hs.frame.trans hf.frame)).accepts ha

/-- The codes `Radau5` uses. -/
def CodeOk (s : St F n P) : Prop := s.sol.retcode = .Continue ∨ s.sol.retcode = .Success ∨
  s.sol.retcode = .MaxIters ∨ s.sol.retcode = .DtLessThanMin ∨ s.sol.retcode = .SingularMatrix

theorem CodeOk.closed : Closed (CodeOk : St F n P → Prop) where
  facs h := h
  real h e := by obtain ⟨r, -, rfl⟩ := decomp_real_ok e; exact h
  cplx h e := by obtain ⟨r, -, rfl⟩ := decomp_complex_ok e; exact h
  count h := h
  fail {s} h := by
    simp only [decFail, halveStep]
    split
    · exact .inr (.inr (.inr (.inr rfl)))
    · split <;> exact h
  init {s} h := by
    simp only [newtonInit, prepare_newton]
    split <;> exact h
  rhs h := h
  solve h _ := h
  theta _ _ _ h := h
  slow {s} d h _ _ := by
    simp only [slowStep]
    split <;> exact h
  halve {s} h := by
    simp only [halveStep]
    split <;> exact h
  upd h := h
  err1 h := h
  err2 h := h
  decomp h := h

theorem CodeOk.step {fuel : Nat} {s s' : St F n P} (hs : CodeOk s) (h : step fuel s = .ok s') :
    CodeOk s' := by
  have hd := fun {s s1 : St F n P} {b fuel} (h : decPhase fuel s = .ok (s1, b)) (hs : CodeOk s) =>
    CodeOk.closed.decPhase hs h
  have kt : ∀ {s : St F n P}, CodeOk s → CodeOk (tick s) := fun h => h
  have hc : ∀ {s : St F n P}, CodeOk s → CodeOk (control s) := by
    intro s hs
    have := CodeOk.closed.decided hs
    rw [control_eq]
    split
    · have a := acceptStep_fields (decided s) (stepQuot (decided s))
      simp only at a
      obtain ⟨-, -, -, -, -, -, -, -, -, -, -, -, -, -, a15, -⟩ := a
      unfold CodeOk
      rw [a15]
      split
      · exact .inr (.inl rfl)
      · exact this
    · unfold CodeOk
      rw [(rejectStep_fields _ _).1]; exact this
  obtain ⟨k, s1, -, ha, hf⟩ := step_ok h
  have h0 : CodeOk (clampLast s) := by unfold CodeOk; rw [(clampLast_fields s).2.1]; exact hs
  have h1 : CodeOk s1 := by
    clear hf
    generalize clampLast s = s0 at ha h0
    induction ha with
    | zero => exact h0
    | succ h1 _ ih =>
      apply ih
      cases h1 with
      | diverged h2 _ _ h4 => exact CodeOk.closed.newton (kt (hd h2 h0)) h4
      | again h2 _ _ h4 _ => exact hc (CodeOk.closed.newton (kt (hd h2 h0)) h4)
  cases hf with
  | singular h2 => exact hd h2 h1
  | maxIters => exact .inr (.inr (.inl rfl))
  | small => exact .inr (.inr (.inr (.inl rfl)))
  | done h2 _ _ h4 _ => exact hc (CodeOk.closed.newton (kt (hd h2 h1)) h4)

theorem codes [FlInf F] {k : Nat} {s s' : St F n P} (hs : CodeOk s) (h : Steps Radau.alg none k s s') :
    CodeOk s' :=
  Steps.invariant (alg := Radau.alg) (I := CodeOk) (fun _ _ _ ha hb => CodeOk.step ha hb) hs h

/-- `uprev` is never written. -/
theorem step_uprev {fuel : Nat} {s s' : St F n P} (h : step fuel s = .ok s') : s'.uprev = s.uprev := by
  refine Closed.step (I := fun x => x.uprev = s.uprev) ?_ (fun h => (Frame.clampLast _).uprev.trans h)
    (fun h => h) (fun h _ => (Frame.rejectStep _ _).uprev.trans h) ?_ (fun _ h => h) rfl h
  · exact {
      facs := fun h => h
      real := fun h e => (Frame.decomp_real e).uprev.trans h
      cplx := fun h e => (Frame.decomp_complex e).uprev.trans h
      count := fun h => h
      fail := fun h => (Frame.decFail _).uprev.trans h
      init := fun h => (Frame.newtonInit _).uprev.trans h
      rhs := fun h => h
      solve := fun h _ => h
      theta := fun _ _ _ h => h
      slow := fun d h _ _ => (Frame.slowStep _ d).uprev.trans h
      halve := fun h => (Frame.halveStep _).uprev.trans h
      upd := fun h => h
      err1 := fun h => h
      err2 := fun h => h
      decomp := fun h => h }
  · intro a ha _
    have h1 := acceptStep_fields a (stepQuot a)
    simp only at h1
    rw [h1.2.2.2.2.2.2.1, ha]

/-- Without Newton iterations no attempt is accepted. -/
theorem newton_zero {s s' : St F n P} {b : Bool} (hm : s.opts.max_newt_iter = 0)
    (h : newton s = .ok (s', b)) : b = false := by
  rw [newton_eq] at h
  have ho : (newtonInit s).opts = s.opts := (Frame.newtonInit s).opts
  rw [newtonLoop, if_pos (by rw [ho, hm]; exact Nat.zero_le _)] at h
  simp only [Res.ok.injEq, Prod.mk.injEq] at h
  exact h.2.symm

theorem step_no_newton {fuel : Nat} {s s' : St F n P} (hm : s.opts.max_newt_iter = 0)
    (h : step fuel s = .ok s') : Frame s s' ∧ (s'.sol.retcode = .MaxIters ∨
      s'.sol.retcode = .DtLessThanMin ∨ s'.sol.retcode = .SingularMatrix ∨
      (s'.sol.retcode ≠ .Continue ∧ s'.sol.retcode = s.sol.retcode)) := by
  obtain ⟨k, s1, -, ha, hf⟩ := step_ok h
  have key : Frame s s1 ∧ s1.sol.retcode = s.sol.retcode := by
    have h0 : Frame s (clampLast s) ∧ (clampLast s).sol.retcode = s.sol.retcode :=
      ⟨.clampLast s, by rw [(clampLast_fields s).2.1]⟩
    clear hf
    generalize clampLast s = s0 at ha h0
    induction ha with
    | zero => exact h0
    | succ h1 _ ih =>
      apply ih
      cases h1 with
      | diverged h2 _ _ h4 =>
        have := decPhase_retcode h2
        simp only [true_and, Bool.true_eq_false, false_and, or_false] at this
        exact ⟨h0.1.trans ((Frame.decPhase h2).trans ((Frame.tick _).trans (.newton h4))),
          by rw [(newton_sol h4).1]; exact this.trans h0.2⟩
      | again h2 _ _ h4 _ =>
        have := newton_zero (by rw [show (tick _).opts = _ from (Frame.decPhase h2).opts, h0.1.opts, hm]) h4
        simp at this
  obtain ⟨k1, k2⟩ := key
  cases hf with
  | singular h2 =>
    have := decPhase_retcode h2
    simp only [true_and, Bool.false_eq_true, false_and, false_or] at this
    refine ⟨k1.trans (.decPhase h2), ?_⟩
    obtain ⟨c1, c2 | c2⟩ := this
    · exact .inr (.inr (.inr ⟨c1, c2.trans k2⟩))
    · exact .inr (.inr (.inl c2))
  | maxIters h2 =>
    exact ⟨k1.trans ((Frame.decPhase h2).trans ((Frame.tick _).trans (.setCode _ _))), .inl rfl⟩
  | small h2 =>
    exact ⟨k1.trans ((Frame.decPhase h2).trans ((Frame.tick _).trans (.setCode _ _))), .inr (.inl rfl)⟩
  | done h2 _ _ h4 _ =>
    have := newton_zero (by rw [show (tick _).opts = _ from (Frame.decPhase h2).opts, k1.opts, hm]) h4
    simp at this

/-! ### Termination -/

theorem perform_total (hn : n ≠ 0) (s : St F n P) : ∃ r, perform_decompositions s = .ok r := by
  simp only [perform_decompositions, decomp_real, decomp_complex, Linalg.dec, Linalg.decc, hn, if_false,
    Res.bind_ok]
  repeat' split
  all_goals exact ⟨_, rfl⟩

/-- The counter of singular matrices grows with each failed decomposition. -/
theorem perform_nsing {s s' : St F n P} {b : Bool} (h : perform_decompositions s = .ok (s', b)) :
    b = true ∨ (s'.cache.nsing = s.cache.nsing + 1 ∧
      (5 ≤ s'.cache.nsing → s'.sol.retcode = .SingularMatrix)) := by
  have hf : ∀ s : St F n P, (decFail s).cache.nsing = s.cache.nsing + 1 ∧
      (5 ≤ (decFail s).cache.nsing → (decFail s).sol.retcode = .SingularMatrix) := by
    intro s
    simp only [decFail, halveStep]
    split
    · exact ⟨rfl, fun _ => rfl⟩
    · rename_i hlt
      split <;> exact ⟨rfl, fun h => absurd h hlt⟩
  obtain ⟨rfl, -⟩ | ⟨hb, s1, rfl, ⟨ier, h1⟩ | ⟨s0, ier, h1, h2⟩⟩ := perform_ok h
  · exact .inl rfl
  · obtain ⟨r, -, rfl⟩ := decomp_real_ok h1
    exact .inr (hf _)
  · obtain ⟨r, -, rfl⟩ := decomp_real_ok h1
    obtain ⟨r', -, rfl⟩ := decomp_complex_ok h2
    exact .inr (hf _)

theorem decLoop_total (hn : n ≠ 0) (fuel : Nat) (s : St F n P) (h : 5 ≤ fuel + s.cache.nsing)
    (h1 : 1 ≤ fuel) : ∃ r, decLoop fuel s = .ok r := by
  induction fuel generalizing s with
  | zero => omega
  | succ f ih =>
    obtain ⟨⟨s1, b⟩, hp⟩ := perform_total hn s
    rw [decLoop, hp]
    simp only [Res.bind_ok]
    obtain hb | ⟨hns, hc⟩ := perform_nsing hp
    · simp [hb]
    · split
      · exact ⟨_, rfl⟩
      · split
        · exact ⟨_, rfl⟩
        · rename_i hr
          simp only [ne_eq, Decidable.not_not] at hr
          have : s1.cache.nsing < 5 := by
            apply Decidable.byContradiction
            intro h5
            rw [hc (by omega)] at hr
            cases hr
          exact ih s1 (by omega) (by omega)

theorem decPhase_total (hn : n ≠ 0) (fuel : Nat) (s : St F n P) (h : 5 ≤ fuel) :
    ∃ r, decPhase fuel s = .ok r := by
  unfold decPhase
  split
  · exact decLoop_total hn fuel s (by omega) (by omega)
  · exact ⟨_, rfl⟩

theorem stepLoop_total (hn : n ≠ 0) (fuel : Nat) (s : St F n P)
    (h : s.opts.max_steps + 5 ≤ fuel + s.stats.steps) (h5 : 5 ≤ fuel) :
    ∃ s', stepLoop fuel s = .ok s' := by
  induction fuel generalizing s with
  | zero => omega
  | succ f ih =>
    obtain ⟨⟨s1, go⟩, hp⟩ := decPhase_total hn (f + 1) s h5
    rw [stepLoop, hp]
    simp only [Res.bind_ok]
    cases go with
    | false => exact ⟨_, rfl⟩
    | true =>
      simp only [Bool.not_true, Bool.false_eq_true, if_false]
      split
      · exact ⟨_, rfl⟩
      · rename_i hm
        split
        · exact ⟨_, rfl⟩
        · obtain ⟨s2, b, hnw⟩ := newton_total (tick s1)
          have hnw' : newton { s1 with stats := { s1.stats with steps := s1.stats.steps + 1 } } =
            .ok (s2, b) := hnw
          rw [hnw']
          simp only [Res.bind_ok]
          obtain ⟨d, hd⟩ := decPhase_stats hp
          have f1 := Frame.decPhase hp
          have f2 := Frame.newton hnw
          have n1 := newton_sol hnw
          have hst2 : s2.stats.steps = s.stats.steps + 1 := by rw [n1.2.1]; simp [tick, hd]
          have hop2 : s2.opts = s.opts := by rw [f2.opts]; exact f1.opts
          have hm' : s.stats.steps + 1 < s.opts.max_steps := by
            rw [hd, f1.opts] at hm
            simpa using hm
          cases b with
          | false =>
            simp only [Bool.not_false, if_true]
            exact ih s2 (by rw [hop2, hst2]; omega) (by omega)
          | true =>
            simp only [Bool.not_true, Bool.false_eq_true, if_false]
            split
            · exact ⟨_, rfl⟩
            · apply ih
              · have c := Counts.control hp hnw
                have hst : (control s2).stats.steps = s.stats.steps + 1 := by
                  have hst : (decided s2).stats.steps = s.stats.steps + 1 := by rw [decided_steps, hst2]
                  rw [control_eq]
                  split
                  · have a := acceptStep_fields (decided s2) (stepQuot (decided s2))
                    simp only at a
                    obtain ⟨-, -, -, -, -, -, -, -, -, -, -, -, -, -, -, -, a17, -⟩ := a
                    rw [a17, hst]
                  · rw [(rejectStep_fields _ _).2.1, hst]
                rw [c.opts, hst]; omega
              · omega

/-- Every call of `step` returns, after at most `max_steps + 5` passes through its loops. -/
theorem step_total (hn : n ≠ 0) (s : St F n P) : ∃ s', step (s.opts.max_steps + 5) s = .ok s' := by
  have c := clampLast_fields s
  have o := (Frame.clampLast s).opts
  exact stepLoop_total hn _ _ (by rw [o]; omega) (by omega)

end Radau
end Cyphus
