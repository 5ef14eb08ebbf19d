import Verif.Proofs.RadauLoop
/-!
# What a `Radau5` step does (any arithmetic)
-/

namespace Cyphus
namespace Radau
set_option linter.unusedSectionVars false
variable {F : Type} {n : Nat} {P : Type}
  [Add F] [Sub F] [Mul F] [Div F] [Neg F] [OfScientific F] [Fl F]

/-- `last` is never set while the current step has rejected attempts. -/
def L (s : St F n P) : Prop := s.cache.reject = true → s.cache.last = false

theorem L.closed : Closed (L : St F n P → Prop) where
  facs h := h
  real h e := by obtain ⟨r, -, rfl⟩ := decomp_real_ok e; exact h
  cplx h e := by obtain ⟨r, -, rfl⟩ := decomp_complex_ok e; exact h
  count h := h
  fail {s} h := by
    simp only [decFail, halveStep]
    split
    · exact h
    · split <;> exact fun _ => rfl
  init {s} h := by
    simp only [newtonInit, prepare_newton]
    split <;> exact h
  rhs h := h
  solve h _ := h
  theta _ _ _ h := h
  slow {s} d h _ _ := by
    simp only [slowStep]
    split <;> exact fun _ => rfl
  halve {s} h := by
    simp only [halveStep]
    split <;> exact fun _ => rfl
  upd h := h
  err1 h := h
  err2 h := h
  decomp h := h

theorem halveStep_flags (s : St F n P) : (halveStep s).cache.reject = true ∧
    (halveStep s).cache.last = false := by
  simp only [halveStep]; split <;> exact ⟨rfl, rfl⟩

theorem slowStep_flags (s : St F n P) (d : F) : (slowStep s d).cache.reject = true ∧
    (slowStep s d).cache.last = false := by
  simp only [slowStep]; split <;> exact ⟨rfl, rfl⟩

/-- The flags after the convergence check. -/
theorem newtonCheck_flags (s : St F n P) (a b : F) :
    if (newtonCheck s a b).2 then (newtonCheck s a b).1.cache.reject = true ∧
      (newtonCheck s a b).1.cache.last = false
    else (newtonCheck s a b).1.cache.reject = s.cache.reject ∧
      (newtonCheck s a b).1.cache.last = s.cache.last ∧ (newtonCheck s a b).1.dt = s.dt := by
  simp only [newtonCheck]
  split
  · split
    · split
      · simpa using slowStep_flags _ _
      · simp
    · simpa using halveStep_flags _
  · simp

theorem newtonLoop_flags {fuel : Nat} {s s' : St F n P} {d : F} {b : Bool}
    (h : newtonLoop fuel s d = .ok (s', b)) :
    if b then s'.cache.reject = s.cache.reject ∧ s'.cache.last = s.cache.last ∧ s'.dt = s.dt
    else s'.cache.reject = true ∧ s'.cache.last = false := by
  induction fuel generalizing s d with
  | zero => simp [newtonLoop] at h
  | succ f ih =>
    simp only [newtonLoop] at h
    split at h
    · simp only [Res.ok.injEq, Prod.mk.injEq] at h
      obtain ⟨rfl, rfl⟩ := h
      simpa using halveStep_flags s
    · have h1 := newtonCheck_flags (newtonSolve (newtonRhs s)) (newtonNorm (newtonSolve (newtonRhs s))) d
      split at h
      · rename_i hb
        simp only [Res.ok.injEq, Prod.mk.injEq] at h
        obtain ⟨rfl, rfl⟩ := h
        simpa [hb] using h1
      · rename_i hb
        simp only [hb] at h1
        split at h
        · simp only [Res.ok.injEq, Prod.mk.injEq] at h
          obtain ⟨rfl, rfl⟩ := h
          simp only [if_true]
          exact h1
        · have := ih h
          have e1 : (newtonUpdate (newtonCheck (newtonSolve (newtonRhs s))
            (newtonNorm (newtonSolve (newtonRhs s))) d).1).cache.reject = s.cache.reject := h1.1
          have e2 : (newtonUpdate (newtonCheck (newtonSolve (newtonRhs s))
            (newtonNorm (newtonSolve (newtonRhs s))) d).1).cache.last = s.cache.last := h1.2.1
          have e3 : (newtonUpdate (newtonCheck (newtonSolve (newtonRhs s))
            (newtonNorm (newtonSolve (newtonRhs s))) d).1).dt = s.dt := h1.2.2
          rw [e1, e2, e3] at this
          exact this

theorem newton_flags {s s' : St F n P} {b : Bool} (h : newton s = .ok (s', b)) :
    if b then s'.cache.reject = s.cache.reject ∧ s'.cache.last = s.cache.last ∧ s'.dt = s.dt
    else s'.cache.reject = true ∧ s'.cache.last = false := by
  rw [newton_eq] at h
  have := newtonLoop_flags h
  have h0 : (newtonInit s).cache.reject = s.cache.reject ∧
      (newtonInit s).cache.last = s.cache.last ∧ (newtonInit s).dt = s.dt := by
    simp only [newtonInit, prepare_newton]
    split <;> exact ⟨rfl, rfl, rfl⟩
  rw [h0.1, h0.2.1, h0.2.2] at this
  exact this

/-- If an accepted step leaves the loop running, the flags were inconsistent before. -/
theorem acceptStep_reject_of_L {s : St F n P} (q : F) (h : L s) : (acceptStep s q).cache.reject = false := by
  by_cases hl : s.cache.last = true
  · have hr : s.cache.reject = false := by
      cases hr : s.cache.reject with
      | false => rfl
      | true => rw [h hr] at hl; simp at hl
    have h' := acceptState_fields (countAccept s)
    simp only at h'
    simp only [acceptStep]
    split
    · exact (h'.2.2.2.2.2.2.2.2.2.2.2.2.2.2.2.2.2.1).trans hr
    · simp [nextStep_fields]
  · exact acceptStep_reject s q (by simpa using hl)

/-- Fields that change neither in the decompositions nor in the Newton iteration nor in the error
estimate. -/
theorem keepSol (ts : List F) (us : List (Vec n F)) (a b c : Nat) :
    Closed (fun s : St F n P => s.sol.ts = ts ∧ s.sol.us = us ∧ s.stats.accepts = a ∧
      s.stats.rejects = b ∧ s.stats.steps = c) where
  facs h := h
  real h e := by obtain ⟨r, -, rfl⟩ := decomp_real_ok e; exact h
  cplx h e := by obtain ⟨r, -, rfl⟩ := decomp_complex_ok e; exact h
  count h := h
  fail {s} h := by
    simp only [decFail, halveStep]
    split
    · exact h
    · split <;> exact h
  init {s} h := by
    simp only [newtonInit, prepare_newton]
    split <;> exact h
  rhs h := h
  solve h _ := h
  theta _ _ _ h := h
  slow {s} d h _ _ := by
    simp only [slowStep]
    split <;> exact h
  halve {s} h := by
    simp only [halveStep]
    split <;> exact h
  upd h := h
  err1 h := h
  err2 h := h
  decomp h := h

theorem Frame.tick (s : St F n P) : Frame s (tick s) := by constructor <;> rfl
theorem Frame.setCode (c : RetCode) (s : St F n P) : Frame s (setCode c s) := by constructor <;> rfl
theorem Frame.decided (s : St F n P) : Frame s (decided s) :=
  (Frame.error_estimate s).trans (by constructor <;> rfl)

theorem decided_sol (s : St F n P) : (decided s).sol = s.sol := (error_estimate_sol s).1
theorem decided_dt (s : St F n P) : (decided s).dt = s.dt := (error_estimate_sol s).2.2.2.1
theorem decided_steps (s : St F n P) : (decided s).stats.steps = s.stats.steps :=
  (error_estimate_sol s).2.1
theorem decided_rejects (s : St F n P) : (decided s).stats.rejects = s.stats.rejects :=
  (error_estimate_sol s).2.2.1

/-- What a failed attempt does. -/
structure AttSpec (s s' : St F n P) : Prop where
  frame : Frame s s'
  reject : s'.cache.reject = true
  last : s'.cache.last = false
  retcode : s'.sol.retcode = s.sol.retcode
  steps : s'.stats.steps = s.stats.steps + 1
  limit : s.stats.steps + 1 < s.opts.max_steps
  rejects : s'.stats.rejects = s.stats.rejects ∨ s'.stats.rejects = s.stats.rejects + 1

theorem Att.spec {s s' : St F n P} (hL : L s) (h : Att s s') : AttSpec s s' := by
  cases h with
  | @diverged s1 s2 fuel h1 h2 h3 h4 =>
    have f1 := Frame.decPhase h1
    have k1 := (keepSol _ _ _ _ _).decPhase ⟨rfl, rfl, rfl, rfl, rfl⟩ h1
    have n1 := newton_sol h4
    have fl := newton_flags h4
    have r1 := decPhase_retcode h1
    simp at fl r1
    exact ⟨f1.trans ((Frame.tick _).trans (Frame.newton h4)), fl.1, fl.2,
      by rw [n1.1]; exact r1, by rw [n1.2.1]; simp [Radau.tick, k1], by rw [← k1.2.2.2.2, ← f1.opts]; exact h2,
      .inl (by rw [n1.2.2.1]; exact k1.2.2.2.1)⟩
  | @again s1 s2 fuel h1 h2 h3 h4 h5 =>
    have f1 := Frame.decPhase h1
    have k1 := (keepSol _ _ _ _ _).decPhase ⟨rfl, rfl, rfl, rfl, rfl⟩ h1
    have n1 := newton_sol h4
    have r1 := decPhase_retcode h1
    simp at r1
    have hL1 : L s1 := L.closed.decPhase hL h1
    have hL2 : L (Radau.decided s2) :=
      L.closed.decided (L.closed.newton (show L (Radau.tick s1) from hL1) h4)
    rw [control_eq] at h5 ⊢
    split at h5
    · rw [acceptStep_reject_of_L _ hL2] at h5; simp at h5
    · rename_i hlt
      rw [if_neg hlt]
      have rf := rejectStep_fields (Radau.decided s2) (stepQuot (Radau.decided s2))
      refine ⟨f1.trans ((Frame.tick _).trans ((Frame.newton h4).trans ((Frame.decided _).trans
        (Frame.rejectStep _ _)))), rf.2.2.1, rf.2.2.2.1, ?_, ?_, ?_, ?_⟩
      · rw [rf.1, decided_sol, n1.1]; exact r1
      · rw [rf.2.1, decided_steps, n1.2.1]; simp [Radau.tick, k1]
      · rw [← k1.2.2.2.2, ← f1.opts]; exact h2
      · rw [rf.2.2.2.2.2.1, decided_rejects, n1.2.2.1]
        have : (Radau.tick s1).stats.rejects = s.stats.rejects := k1.2.2.2.1
        rw [this]
        split
        · exact .inr rfl
        · exact .inl rfl

theorem AttSpec.L {s s' : St F n P} (h : AttSpec s s') : L s' := fun _ => h.last

/-- What a sequence of failed attempts does. -/
structure AttsSpec (k : Nat) (s s' : St F n P) : Prop where
  frame : Frame s s'
  L : L s'
  reject : s'.cache.reject = if k = 0 then s.cache.reject else true
  last : s'.cache.last = if k = 0 then s.cache.last else false
  retcode : s'.sol.retcode = s.sol.retcode
  steps : s'.stats.steps = s.stats.steps + k
  limit : k = 0 ∨ s.stats.steps + k < s.opts.max_steps
  rejects : s.stats.rejects ≤ s'.stats.rejects ∧ s'.stats.rejects ≤ s.stats.rejects + k

theorem Atts.spec {k : Nat} {s s' : St F n P} (hL : Radau.L s) (h : Atts k s s') : AttsSpec k s s' := by
  induction h with
  | zero s => exact ⟨.refl _, hL, by simp, by simp, rfl, by simp, .inl rfl, by simp⟩
  | @succ k s s1 s2 h1 h2 ih =>
    have a := h1.spec hL
    have b := ih a.L
    refine ⟨a.frame.trans b.frame, b.L, ?_, ?_, ?_, ?_, ?_, ?_⟩
    · rw [b.reject, a.reject]; simp
    · rw [b.last, a.last]; simp
    · rw [b.retcode, a.retcode]
    · rw [b.steps, a.steps]; omega
    · right
      have := a.limit
      have := b.limit
      rw [a.steps, a.frame.opts] at this
      omega
    · have := a.rejects
      have := b.rejects
      omega

theorem rejected_closed : Closed (fun s : St F n P => s.cache.reject = true) where
  facs h := h
  real h e := by obtain ⟨r, -, rfl⟩ := decomp_real_ok e; exact h
  cplx h e := by obtain ⟨r, -, rfl⟩ := decomp_complex_ok e; exact h
  count h := h
  fail {s} h := by
    simp only [decFail, halveStep]
    split
    · exact h
    · split <;> rfl
  init {s} h := by
    simp only [newtonInit, prepare_newton]
    split <;> exact h
  rhs h := h
  solve h _ := h
  theta _ _ _ h := h
  slow {s} d h _ _ := by
    simp only [slowStep]
    split <;> rfl
  halve {s} h := by
    simp only [halveStep]
    split <;> rfl
  upd h := h
  err1 h := h
  err2 h := h
  decomp h := h

/-- What the final attempt does if it accepts the step. -/
structure AcceptSpec (s d s' : St F n P) : Prop where
  /-- `d` is the state in which the decision was taken -/
  frame : Frame s d
  eq : s' = acceptStep d (stepQuot d)
  err : Fl.lt d.cache.err 1.0 = true
  retcode : d.sol.retcode = s.sol.retcode
  steps : d.stats.steps = s.stats.steps + 1
  rejects : d.stats.rejects = s.stats.rejects
  limit : s.stats.steps + 1 < s.opts.max_steps
  L : Radau.L d
  reject : s'.cache.reject = false
  mono : s.cache.reject = true → d.cache.reject = true

/-- What the final attempt does if it does not accept. -/
structure FailSpec (s s' : St F n P) : Prop where
  frame : Frame s s'
  retcode : s'.sol.retcode ≠ .Continue
  code : s'.sol.retcode = s.sol.retcode ∨ s'.sol.retcode = .SingularMatrix ∨
    s'.sol.retcode = .MaxIters ∨ s'.sol.retcode = .DtLessThanMin
  steps : s.stats.steps ≤ s'.stats.steps ∧ s'.stats.steps ≤ s.stats.steps + 1
  rejects : s'.stats.rejects = s.stats.rejects

theorem Fin.spec {s s' : St F n P} (hL : L s) (h : Fin s s') :
    (∃ d, AcceptSpec s d s') ∨ FailSpec s s' := by
  cases h with
  | @singular s1 fuel h1 =>
    right
    have k1 := (keepSol _ _ _ _ _).decPhase ⟨rfl, rfl, rfl, rfl, rfl⟩ h1
    have r1 := decPhase_retcode h1
    simp at r1
    exact ⟨.decPhase h1, r1.1, r1.2.imp_right .inl, by omega, k1.2.2.2.1⟩
  | @maxIters s1 fuel h1 h2 =>
    right
    have k1 := (keepSol _ _ _ _ _).decPhase ⟨rfl, rfl, rfl, rfl, rfl⟩ h1
    exact ⟨(Frame.decPhase h1).trans ((Frame.tick _).trans (.setCode _ _)), by simp [setCode],
      by simp [setCode], by simp [setCode, tick, k1], k1.2.2.2.1⟩
  | @small s1 fuel h1 h2 h3 =>
    right
    have k1 := (keepSol _ _ _ _ _).decPhase ⟨rfl, rfl, rfl, rfl, rfl⟩ h1
    exact ⟨(Frame.decPhase h1).trans ((Frame.tick _).trans (.setCode _ _)), by simp [setCode],
      by simp [setCode], by simp [setCode, tick, k1], k1.2.2.2.1⟩
  | @done s1 s2 fuel h1 h2 h3 h4 h5 =>
    left
    have f1 := Frame.decPhase h1
    have k1 := (keepSol _ _ _ _ _).decPhase ⟨rfl, rfl, rfl, rfl, rfl⟩ h1
    have n1 := newton_sol h4
    have r1 := decPhase_retcode h1
    simp at r1
    have hL1 : L s1 := L.closed.decPhase hL h1
    have hL2 : L (Radau.decided s2) :=
      L.closed.decided (L.closed.newton (show L (Radau.tick s1) from hL1) h4)
    rw [control_eq] at h5 ⊢
    split at h5
    · rename_i hlt
      rw [if_pos hlt]
      refine ⟨decided s2, f1.trans ((Frame.tick _).trans ((Frame.newton h4).trans (Frame.decided _))),
        rfl, hlt, ?_, ?_, ?_, ?_, hL2, h5, fun hr => by
          have h6 := rejected_closed.decPhase hr h1
          exact rejected_closed.decided (rejected_closed.newton
            (show (Radau.tick s1).cache.reject = true from h6) h4)⟩
      · rw [decided_sol, n1.1]; exact r1
      · rw [decided_steps, n1.2.1]; simp [Radau.tick, k1]
      · rw [decided_rejects, n1.2.2.1]; exact k1.2.2.2.1
      · rw [← k1.2.2.2.2, ← f1.opts]; exact h2
    · rw [(rejectStep_fields _ _).2.2.1] at h5; simp at h5

theorem clampLast_fields (s : St F n P) : (clampLast s).cache.reject = s.cache.reject ∧
    (clampLast s).sol = s.sol ∧ (clampLast s).stats = s.stats ∧ (clampLast s).cache = { s.cache with
      last := (clampLast s).cache.last } := by
  simp only [clampLast]; split <;> exact ⟨rfl, rfl, rfl, rfl⟩

theorem L_clampLast {s : St F n P} (h : s.cache.reject = false) : L (clampLast s) := by
  intro h'; rw [(clampLast_fields s).1, h] at h'; simp at h'

/-- A whole step, started with `reject` cleared. -/
theorem step_spec {fuel : Nat} {s s' : St F n P} (hr : s.cache.reject = false)
    (h : step fuel s = .ok s') : ∃ k s1, Atts k (clampLast s) s1 ∧ AttsSpec k (clampLast s) s1 ∧
      ((∃ d, AcceptSpec s1 d s') ∨ FailSpec s1 s') := by
  obtain ⟨k, s1, -, ha, hf⟩ := step_ok h
  have := ha.spec (L_clampLast hr)
  exact ⟨k, s1, ha, this, hf.spec this.L⟩

/-- The state at the beginning of a call of `step` during a run. -/
structure Ready (s : St F n P) : Prop where
  reject : s.cache.reject = false
  retcode : s.sol.retcode = .Continue

/-- A step during a run either accepts a step: one point is recorded, the code is `Continue` or `Success` … -/
structure Accepted (s s' : St F n P) : Prop where
  ts : s'.sol.ts = s.sol.ts ++ [s'.t]
  us : s'.sol.us = s.sol.us ++ [s'.u]
  accepts : s'.stats.accepts = s.stats.accepts + 1
  retcode : s'.sol.retcode = .Continue ∨ s'.sol.retcode = .Success
  reject : s'.cache.reject = false
  tprev : s'.tprev = s.t
  err : Fl.lt s'.cache.err 1.0 = true

/-- … or it does not: nothing is recorded and the code is an error code. -/
structure Failed (s s' : St F n P) : Prop where
  frame : Frame s s'
  retcode : s'.sol.retcode = .SingularMatrix ∨ s'.sol.retcode = .MaxIters ∨
    s'.sol.retcode = .DtLessThanMin

/-- Fields no step ever changes, and the counters. -/
structure StepFrame (s s' : St F n P) : Prop where
  dudt : s'.dudt = s.dudt
  dfdt : s'.dfdt = s.dfdt
  dfdu : s'.dfdu = s.dfdu
  params : s'.params = s.params
  uprev : s'.uprev = s.uprev
  tdir : s'.tdir = s.tdir
  tfinal : s'.tfinal = s.tfinal
  opts : s'.opts = s.opts
  jacobian_evals : s'.stats.jacobian_evals = s.stats.jacobian_evals

theorem Frame.stepFrame {s s' : St F n P} (h : Frame s s') : StepFrame s s' :=
  ⟨h.dudt, h.dfdt, h.dfdu, h.params, h.uprev, h.tdir, h.tfinal, h.opts, h.jacobian_evals⟩

theorem StepFrame.trans {a b c : St F n P} (h : StepFrame a b) (g : StepFrame b c) : StepFrame a c :=
  ⟨g.dudt.trans h.dudt, g.dfdt.trans h.dfdt, g.dfdu.trans h.dfdu, g.params.trans h.params,
   g.uprev.trans h.uprev, g.tdir.trans h.tdir, g.tfinal.trans h.tfinal, g.opts.trans h.opts,
   g.jacobian_evals.trans h.jacobian_evals⟩

theorem StepFrame.accept (s : St F n P) (q : F) : StepFrame s (acceptStep s q) := by
  have h := acceptStep_fields s q
  exact ⟨h.1, h.2.1, h.2.2.1, h.2.2.2.1, h.2.2.2.2.2.2.1, h.2.2.2.2.2.2.2.2.2.1,
    h.2.2.2.2.2.2.2.2.2.2.1, h.2.2.2.2.2.2.2.2.2.2.2.1, h.2.2.2.2.2.2.2.2.2.2.2.2.2.2.2.2.2.2.1⟩

theorem acceptStep_err (s : St F n P) (q : F) : (acceptStep s q).cache.err = s.cache.err := by
  have h1 : (acceptState (countAccept s)).cache.err = s.cache.err := by
    simp only [acceptState]; split <;> rfl
  have h2 : ∀ s : St F n P, (finishNext s).cache.err = s.cache.err := by
    intro s; simp only [finishNext]; split <;> rfl
  have h3 : ∀ (s : St F n P) d, (nextStep s d).cache.err = s.cache.err := by
    intro s d; simp only [nextStep]; split
    · rw [h2]
    · split
      · rfl
      · rw [h2]
  simp only [acceptStep]
  split
  · exact h1
  · rw [h3]; exact h1

/-- A step during a run. -/
theorem step_cases {fuel : Nat} {s s' : St F n P} (hr : Ready s) (h : step fuel s = .ok s') :
    StepFrame s s' ∧ (Accepted s s' ∨ Failed s s') := by
  obtain ⟨k, s1, -, ha, ⟨d, hd⟩ | hf⟩ := step_spec hr.reject h
  · have f := (Frame.clampLast s).trans (ha.frame.trans hd.frame)
    have a := acceptStep_fields d (stepQuot d)
    simp only at a
    rw [← hd.eq] at a
    obtain ⟨-, -, -, -, a5, a6, -, a8, -, -, -, -, a13, a14, a15, a16, -⟩ := a
    refine ⟨f.stepFrame.trans (hd.eq ▸ StepFrame.accept _ _), .inl ⟨?_, ?_, ?_, ?_, hd.reject, ?_, ?_⟩⟩
    · rw [a13, a6, f.ts]
    · rw [a14, a5, f.us]
    · rw [a16, f.accepts]
    · rw [a15, hd.retcode, ha.retcode, (clampLast_fields s).2.1, hr.retcode]
      split <;> simp
    · rw [a8, f.t]
    · rw [hd.eq, acceptStep_err]; exact hd.err
  · have f := (Frame.clampLast s).trans (ha.frame.trans hf.frame)
    refine ⟨f.stepFrame, .inr ⟨f, ?_⟩⟩
    have h1 := hf.retcode
    have h2 := hf.code
    rw [ha.retcode, (clampLast_fields s).2.1, hr.retcode] at h2
    exact h2.resolve_left h1

theorem Ready.step {fuel : Nat} {s s' : St F n P} (hr : Ready s) (h : step fuel s = .ok s')
    (hc : s'.sol.retcode = .Continue) : Ready s' := by
  obtain ⟨-, h | h⟩ := step_cases hr h
  · exact ⟨h.reject, hc⟩
  · have := h.retcode
    simp [hc] at this

/-! ### Invariants of the attempts of one step -/

section
variable {I : St F n P → Prop} (hI : Closed I) (htick : ∀ {s}, I s → I (tick s))
  (hrej : ∀ {s}, I s → Fl.lt s.cache.err 1.0 = false → I (rejectStep s (stepQuot s)))
include hI htick

theorem Closed.attsL (hrej : ∀ {s}, I s → Fl.lt s.cache.err 1.0 = false → I (rejectStep s (stepQuot s)))
    {k : Nat} {s s' : St F n P} (hL : L s) (hs : I s) (h : Atts k s s') : I s' := by
  induction h with
  | zero => exact hs
  | succ h1 _ ih =>
    apply ih (h1.spec hL).L
    cases h1 with
    | diverged h1 _ _ h2 => exact hI.newton (htick (hI.decPhase hs h1)) h2
    | again h1 _ _ h2 h5 =>
      have := hI.decided (hI.newton (htick (hI.decPhase hs h1)) h2)
      have hL1 := L.closed.decPhase hL h1
      have hL2 := L.closed.decided (L.closed.newton (show L (tick _) from hL1) h2)
      rw [control_eq] at h5 ⊢
      split at h5
      · rw [acceptStep_reject_of_L _ hL2] at h5; simp at h5
      · rename_i hlt
        rw [if_neg hlt]
        exact hrej this (Bool.eq_false_iff.2 hlt)

/-- The final attempt: what is invariant holds when the decision to accept is taken, and then the step is not too
small. -/
theorem Fin.specI {s s' : St F n P} (hL : L s) (hs : I s) (h : Fin s s') :
    (∃ d, I d ∧ tooSmall d = false ∧ AcceptSpec s d s') ∨ FailSpec s s' := by
  obtain h' | h' := h.spec hL
  · obtain ⟨d0, hd0⟩ := h'
    cases h with
    | singular h1 =>
      have k1 := (keepSol _ _ _ _ _).decPhase ⟨rfl, rfl, rfl, rfl, rfl⟩ h1
      have := acceptStep_fields d0 (stepQuot d0)
      simp only at this
      rw [← hd0.eq, k1.2.2.1, hd0.frame.accepts] at this
      omega
    | maxIters h1 _ =>
      have k1 := (keepSol _ _ _ _ _).decPhase ⟨rfl, rfl, rfl, rfl, rfl⟩ h1
      have := acceptStep_fields d0 (stepQuot d0)
      simp only at this
      rw [← hd0.eq, hd0.frame.accepts] at this
      have h2 := this.2.2.2.2.2.2.2.2.2.2.2.2.2.2.2.1
      simp only [setCode, tick, k1.2.2.1] at h2
      omega
    | small h1 _ _ =>
      have k1 := (keepSol _ _ _ _ _).decPhase ⟨rfl, rfl, rfl, rfl, rfl⟩ h1
      have := acceptStep_fields d0 (stepQuot d0)
      simp only at this
      rw [← hd0.eq, hd0.frame.accepts] at this
      have h2 := this.2.2.2.2.2.2.2.2.2.2.2.2.2.2.2.1
      simp only [setCode, tick, k1.2.2.1] at h2
      omega
    | @done s1 s2 fuel h1 h2 h3 h4 h5 =>
      left
      have f1 := Frame.decPhase h1
      have k1 := (keepSol _ _ _ _ _).decPhase ⟨rfl, rfl, rfl, rfl, rfl⟩ h1
      have n1 := newton_sol h4
      have r1 := decPhase_retcode h1
      simp at r1
      have hL1 := L.closed.decPhase hL h1
      have hL2 : L (Radau.decided s2) :=
        L.closed.decided (L.closed.newton (show L (Radau.tick s1) from hL1) h4)
      have hI2 : I (Radau.decided s2) := hI.decided (hI.newton (htick (hI.decPhase hs h1)) h4)
      have f2 := (Frame.newton h4).trans (Frame.decided _)
      have e2 : (Radau.decided s2).dt = s1.dt := by
        have := newton_flags h4
        simp at this
        rw [decided_dt, this.2.2]; rfl
      have e3 : (Radau.decided s2).t = s1.t := f2.t
      rw [control_eq] at h5 ⊢
      split at h5
      · rename_i hlt
        rw [if_pos hlt]
        refine ⟨Radau.decided s2, hI2, by unfold tooSmall; rw [e2, e3]; exact h3,
          f1.trans ((Frame.tick _).trans f2), rfl, hlt, ?_, ?_, ?_, ?_, hL2, h5, fun hr => by
          have h6 := rejected_closed.decPhase hr h1
          exact rejected_closed.decided (rejected_closed.newton
            (show (Radau.tick s1).cache.reject = true from h6) h4)⟩
        · rw [decided_sol, n1.1]; exact r1
        · rw [decided_steps, n1.2.1]; simp [Radau.tick, k1]
        · rw [decided_rejects, n1.2.2.1]; exact k1.2.2.2.1
        · rw [← k1.2.2.2.2, ← f1.opts]; exact h2
      · rw [(rejectStep_fields _ _).2.2.1] at h5; simp at h5
  · exact .inr h'

include hrej

/-- A whole step, with an invariant of its attempts. -/
theorem step_specI {fuel : Nat} {s s' : St F n P} (hr : s.cache.reject = false) (hs : I (clampLast s))
    (h : step fuel s = .ok s') : ∃ k s1, Atts k (clampLast s) s1 ∧ AttsSpec k (clampLast s) s1 ∧ I s1 ∧
      ((∃ d, I d ∧ tooSmall d = false ∧ AcceptSpec s1 d s') ∨ FailSpec s1 s') := by
  obtain ⟨k, s1, -, ha, hf⟩ := step_ok h
  have sp := ha.spec (L_clampLast hr)
  have h1 := hI.attsL htick hrej (L_clampLast hr) hs ha
  exact ⟨k, s1, ha, sp, h1, hf.specI hI htick sp.L h1⟩

end
end Radau
end Cyphus
