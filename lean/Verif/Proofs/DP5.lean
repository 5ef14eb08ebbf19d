import Verif.DP5.Model
import Verif.Ode.Run
/-!
# Structure of a `DormandPrince5` step (any arithmetic)

A call of `step` is: `clampLast`, some number of rejected attempts, one accepted attempt, `finishStep`.
-/

namespace Cyphus
namespace DP5
set_option linter.unusedSectionVars false
variable {F : Type} {n : Nat} {P : Type}
  [Add F] [Sub F] [Mul F] [Div F] [Neg F] [OfScientific F] [Fl F]

/-- The error estimate of the attempt made in state `s`. -/
def errOf (s : St F n P) : F := error (compute_stages s)

/-- The state after an accepted attempt. -/
def accepted (s : St F n P) : St F n P :=
  acceptStep (errOf s) (s.dt / stepFac s.opts s.cache.facold (errOf s)) (compute_stages s)

/-- The state after a rejected attempt (before the too-small test). -/
def rejected (s : St F n P) : St F n P := rejectStep (errOf s) (compute_stages s)

theorem attempt_eq (s : St F n P) :
    attempt s = if Fl.le (errOf s) 1.0 then
      (if s.opts.max_stiff = 0 then .panic else .ok (accepted s)) else .ok (rejected s) := rfl

section fields
variable (s : St F n P)

theorem acceptStep_fields (e d : F) (s : St F n P) :
    let s' := acceptStep e d s
    s'.dudt = s.dudt ∧ s'.dfdt = s.dfdt ∧ s'.dfdu = s.dfdu ∧ s'.params = s.params ∧
    s'.u = s.cache.unew ∧ s'.t = s.t + s.dt ∧ s'.uprev = s.u ∧ s'.tprev = s.t ∧ s'.dtprev = s.dt ∧
    s'.tdir = s.tdir ∧ s'.tfinal = s.tfinal ∧ s'.opts = s.opts ∧
    s'.stats = { s.stats with accepts := s.stats.accepts + 1 } ∧ s'.sol = s.sol ∧
    s'.trace = s.trace ∧
    s'.cache.reject = false ∧ s'.cache.last = s.cache.last ∧ s'.cache.du = s.cache.dunew ∧
    s'.cache.facold = Fl.max e 1e-4 := by
  simp only [acceptStep]
  split <;> split <;> simp [stiffness, prepare_dense] <;> repeat' split
  all_goals simp_all

theorem acceptStep_dt (e d : F) (s : St F n P) :
    (acceptStep e d s).dt =
      (let d := if Fl.gt (Fl.abs d) s.opts.dtmax then s.tdir * s.opts.dtmax else d
       if s.cache.reject then s.tdir * Fl.min (Fl.abs d) (Fl.abs s.dt) else d) := by
  have h1 : ∀ s : St F n P, (stiffness s).cache.reject = s.cache.reject := by
    intro s; simp only [stiffness]; repeat' split
    all_goals rfl
  have h2 : ∀ s : St F n P, (stiffness s).opts = s.opts := fun _ => rfl
  have h3 : ∀ s : St F n P, (stiffness s).tdir = s.tdir := fun _ => rfl
  have h4 : ∀ s : St F n P, (stiffness s).dt = s.dt := fun _ => rfl
  simp only [acceptStep]
  split <;> split <;> simp [h1, h2, h3, h4, prepare_dense] <;> rfl

@[simp] theorem accepted_dudt : (accepted s).dudt = s.dudt := (acceptStep_fields _ _ _).1
@[simp] theorem accepted_dfdt : (accepted s).dfdt = s.dfdt := (acceptStep_fields _ _ _).2.1
@[simp] theorem accepted_dfdu : (accepted s).dfdu = s.dfdu := (acceptStep_fields _ _ _).2.2.1
@[simp] theorem accepted_params : (accepted s).params = s.params := (acceptStep_fields _ _ _).2.2.2.1
@[simp] theorem accepted_u : (accepted s).u = (compute_stages s).cache.unew :=
  (acceptStep_fields _ _ _).2.2.2.2.1
@[simp] theorem accepted_t : (accepted s).t = s.t + s.dt := (acceptStep_fields _ _ _).2.2.2.2.2.1
@[simp] theorem accepted_uprev : (accepted s).uprev = s.u := (acceptStep_fields _ _ _).2.2.2.2.2.2.1
@[simp] theorem accepted_tprev : (accepted s).tprev = s.t := (acceptStep_fields _ _ _).2.2.2.2.2.2.2.1
@[simp] theorem accepted_dtprev : (accepted s).dtprev = s.dt :=
  (acceptStep_fields _ _ _).2.2.2.2.2.2.2.2.1
@[simp] theorem accepted_tdir : (accepted s).tdir = s.tdir :=
  (acceptStep_fields _ _ _).2.2.2.2.2.2.2.2.2.1
@[simp] theorem accepted_tfinal : (accepted s).tfinal = s.tfinal :=
  (acceptStep_fields _ _ _).2.2.2.2.2.2.2.2.2.2.1
@[simp] theorem accepted_opts : (accepted s).opts = s.opts :=
  (acceptStep_fields _ _ _).2.2.2.2.2.2.2.2.2.2.2.1
@[simp] theorem accepted_stats : (accepted s).stats =
    { s.stats with accepts := s.stats.accepts + 1, function_evals := s.stats.function_evals + 6 } :=
  (acceptStep_fields _ _ _).2.2.2.2.2.2.2.2.2.2.2.2.1
@[simp] theorem accepted_sol : (accepted s).sol = s.sol :=
  (acceptStep_fields _ _ _).2.2.2.2.2.2.2.2.2.2.2.2.2.1
@[simp] theorem accepted_trace : (accepted s).trace = (compute_stages s).trace :=
  (acceptStep_fields _ _ _).2.2.2.2.2.2.2.2.2.2.2.2.2.2.1
@[simp] theorem accepted_reject : (accepted s).cache.reject = false :=
  (acceptStep_fields _ _ _).2.2.2.2.2.2.2.2.2.2.2.2.2.2.2.1
@[simp] theorem accepted_last : (accepted s).cache.last = s.cache.last :=
  (acceptStep_fields _ _ _).2.2.2.2.2.2.2.2.2.2.2.2.2.2.2.2.1
@[simp] theorem accepted_du : (accepted s).cache.du = (compute_stages s).cache.dunew :=
  (acceptStep_fields _ _ _).2.2.2.2.2.2.2.2.2.2.2.2.2.2.2.2.2.1
@[simp] theorem accepted_facold : (accepted s).cache.facold = Fl.max (errOf s) 1e-4 :=
  (acceptStep_fields _ _ _).2.2.2.2.2.2.2.2.2.2.2.2.2.2.2.2.2.2
theorem accepted_dt : (accepted s).dt =
    (let d := s.dt / stepFac s.opts s.cache.facold (errOf s)
     let d := if Fl.gt (Fl.abs d) s.opts.dtmax then s.tdir * s.opts.dtmax else d
     if s.cache.reject then s.tdir * Fl.min (Fl.abs d) (Fl.abs s.dt) else d) :=
  acceptStep_dt _ _ _

/-- The state with which the loop continues after a rejected attempt. -/
def retry (s : St F n P) : St F n P := checkDtMin (rejected s)

@[simp] theorem retry_dudt : (retry s).dudt = s.dudt := by unfold retry checkDtMin; split <;> rfl
@[simp] theorem retry_dfdt : (retry s).dfdt = s.dfdt := by unfold retry checkDtMin; split <;> rfl
@[simp] theorem retry_dfdu : (retry s).dfdu = s.dfdu := by unfold retry checkDtMin; split <;> rfl
@[simp] theorem retry_params : (retry s).params = s.params := by unfold retry checkDtMin; split <;> rfl
@[simp] theorem retry_u : (retry s).u = s.u := by unfold retry checkDtMin; split <;> rfl
@[simp] theorem retry_t : (retry s).t = s.t := by unfold retry checkDtMin; split <;> rfl
@[simp] theorem retry_uprev : (retry s).uprev = s.uprev := by unfold retry checkDtMin; split <;> rfl
@[simp] theorem retry_tprev : (retry s).tprev = s.tprev := by unfold retry checkDtMin; split <;> rfl
@[simp] theorem retry_dtprev : (retry s).dtprev = s.dt := by unfold retry checkDtMin; split <;> rfl
@[simp] theorem retry_tdir : (retry s).tdir = s.tdir := by unfold retry checkDtMin; split <;> rfl
@[simp] theorem retry_tfinal : (retry s).tfinal = s.tfinal := by unfold retry checkDtMin; split <;> rfl
@[simp] theorem retry_opts : (retry s).opts = s.opts := by unfold retry checkDtMin; split <;> rfl
@[simp] theorem retry_stats : (retry s).stats = { s.stats with
    rejects := if s.stats.accepts ≥ 1 then s.stats.rejects + 1 else s.stats.rejects
    function_evals := s.stats.function_evals + 6 } := by unfold retry checkDtMin; split <;> rfl
@[simp] theorem retry_ts : (retry s).sol.ts = s.sol.ts := by unfold retry checkDtMin; split <;> rfl
@[simp] theorem retry_us : (retry s).sol.us = s.sol.us := by unfold retry checkDtMin; split <;> rfl
theorem retry_retcode : (retry s).sol.retcode =
    if Fl.le (Fl.abs (retry s).dt) (Fl.abs s.t * Fl.eps) then .DtLessThanMin else s.sol.retcode := by
  have : (retry s).dt = (rejected s).dt := by unfold retry checkDtMin; split <;> rfl
  rw [this]
  unfold retry checkDtMin
  by_cases h : Fl.le (Fl.abs (rejected s).dt) (Fl.abs s.t * Fl.eps) = true
  · rw [if_pos h, if_pos (show Fl.le (Fl.abs (rejected s).dt) (Fl.abs (rejected s).t * Fl.eps) = true from h)]
  · rw [if_neg h, if_neg (show ¬ Fl.le (Fl.abs (rejected s).dt) (Fl.abs (rejected s).t * Fl.eps) = true from h)]
    rfl
@[simp] theorem retry_trace : (retry s).trace = (compute_stages s).trace := by
  unfold retry checkDtMin; split <;> rfl
@[simp] theorem retry_reject : (retry s).cache.reject = true := by
  unfold retry checkDtMin; split <;> rfl
@[simp] theorem retry_last : (retry s).cache.last = false := by unfold retry checkDtMin; split <;> rfl
@[simp] theorem retry_du : (retry s).cache.du = s.cache.du := by unfold retry checkDtMin; split <;> rfl
@[simp] theorem retry_facold : (retry s).cache.facold = s.cache.facold := by
  unfold retry checkDtMin; split <;> rfl
@[simp] theorem retry_dt : (retry s).dt =
    s.dt / Fl.min (1.0 / s.opts.facl) (fac11 s.opts (errOf s) / s.opts.safe) := by
  unfold retry checkDtMin; split <;> rfl

end fields

/-- `Rejs k s s'`: starting in `s`, exactly `k` attempts are made and rejected, leading to `s'`. -/
inductive Rejs : Nat → St F n P → St F n P → Prop
  | zero (s) : Rejs 0 s s
  | succ {k s s'} : Fl.le (errOf s) 1.0 = false → Rejs k (retry s) s' → Rejs (k + 1) s s'

theorem attemptLoop_succ (fuel : Nat) (s : St F n P) :
    attemptLoop (fuel + 1) s = if Fl.le (errOf s) 1.0 then
      (if s.opts.max_stiff = 0 then .panic else .ok (accepted s)) else attemptLoop fuel (retry s) := by
  rw [attemptLoop, attempt_eq]
  split
  · split <;> simp
  · simp; rw [if_neg (by rw [show (rejected s).cache.reject = true from rfl]; simp)]; rfl

theorem attemptLoop_ok {fuel : Nat} {s s' : St F n P} :
    attemptLoop fuel s = .ok s' ↔ ∃ k s1, k < fuel ∧ Rejs k s s1 ∧ Fl.le (errOf s1) 1.0 = true ∧
      s1.opts.max_stiff ≠ 0 ∧ s' = accepted s1 := by
  induction fuel generalizing s with
  | zero => simp [attemptLoop]
  | succ f ih =>
    rw [attemptLoop_succ]
    constructor
    · intro h
      split at h
      · rename_i ha
        split at h
        · simp at h
        · rename_i hm
          injection h with h
          exact ⟨0, s, by omega, .zero s, ha, hm, h.symm⟩
      · rename_i ha
        obtain ⟨k, s1, hk, hr, h1, h2, h3⟩ := ih.1 h
        exact ⟨k + 1, s1, by omega, .succ (by simpa using ha) hr, h1, h2, h3⟩
    · rintro ⟨k, s1, hk, hr, h1, h2, rfl⟩
      cases hr with
      | zero => simp [h1, h2]
      | succ ha hr =>
        rw [if_neg (by simp [ha])]
        exact ih.2 ⟨_, s1, by omega, hr, h1, h2, rfl⟩

theorem attemptLoop_panic {fuel : Nat} {s : St F n P} :
    attemptLoop fuel s = .panic ↔ ∃ k s1, k < fuel ∧ Rejs k s s1 ∧ Fl.le (errOf s1) 1.0 = true ∧
      s1.opts.max_stiff = 0 := by
  induction fuel generalizing s with
  | zero => simp [attemptLoop]
  | succ f ih =>
    rw [attemptLoop_succ]
    constructor
    · intro h
      split at h
      · rename_i ha
        split at h
        · rename_i hm
          exact ⟨0, s, by omega, .zero s, ha, hm⟩
        · simp at h
      · rename_i ha
        obtain ⟨k, s1, hk, hr, h1, h2⟩ := ih.1 h
        exact ⟨k + 1, s1, by omega, .succ (by simpa using ha) hr, h1, h2⟩
    · rintro ⟨k, s1, hk, hr, h1, h2⟩
      cases hr with
      | zero => simp [h1, h2]
      | succ ha hr =>
        rw [if_neg (by simp [ha])]
        exact ih.2 ⟨_, s1, by omega, hr, h1, h2⟩

/-- The decomposition of a `step` which returns. -/
theorem step_ok {fuel : Nat} {s s' : St F n P} :
    step fuel s = .ok s' ↔ ∃ k s1, k < fuel ∧ Rejs k (clampLast s) s1 ∧
      Fl.le (errOf s1) 1.0 = true ∧ s1.opts.max_stiff ≠ 0 ∧ s' = finishStep (accepted s1) := by
  unfold step
  rw [Res.bind_eq_ok]
  constructor
  · rintro ⟨a, ha, hf⟩
    obtain ⟨k, s1, hk, hr, h1, h2, rfl⟩ := attemptLoop_ok.1 ha
    injection hf with hf
    exact ⟨k, s1, hk, hr, h1, h2, hf.symm⟩
  · rintro ⟨k, s1, hk, hr, h1, h2, rfl⟩
    exact ⟨_, attemptLoop_ok.2 ⟨k, s1, hk, hr, h1, h2, rfl⟩, rfl⟩

theorem step_fuel_mono {f g : Nat} {s s' : St F n P} (h : step f s = .ok s') (hfg : f ≤ g) :
    step g s = .ok s' := by
  obtain ⟨k, s1, hk, r⟩ := step_ok.1 h
  exact step_ok.2 ⟨k, s1, by omega, r⟩

/-- Fields a rejected attempt leaves alone. -/
structure Frame (s s' : St F n P) : Prop where
  dudt : s'.dudt = s.dudt
  dfdt : s'.dfdt = s.dfdt
  dfdu : s'.dfdu = s.dfdu
  params : s'.params = s.params
  u : s'.u = s.u
  t : s'.t = s.t
  uprev : s'.uprev = s.uprev
  tprev : s'.tprev = s.tprev
  tdir : s'.tdir = s.tdir
  tfinal : s'.tfinal = s.tfinal
  opts : s'.opts = s.opts
  steps : s'.stats.steps = s.stats.steps
  accepts : s'.stats.accepts = s.stats.accepts
  ts : s'.sol.ts = s.sol.ts
  us : s'.sol.us = s.sol.us
  du : s'.cache.du = s.cache.du
  facold : s'.cache.facold = s.cache.facold

theorem Frame.refl (s : St F n P) : Frame s s := by constructor <;> rfl

theorem Frame.trans {a b c : St F n P} (h : Frame a b) (g : Frame b c) : Frame a c := by
  constructor
  all_goals first
    | exact g.dudt.trans h.dudt | exact g.dfdt.trans h.dfdt | exact g.dfdu.trans h.dfdu
    | exact g.params.trans h.params | exact g.u.trans h.u | exact g.t.trans h.t
    | exact g.uprev.trans h.uprev | exact g.tprev.trans h.tprev | exact g.tdir.trans h.tdir
    | exact g.tfinal.trans h.tfinal | exact g.opts.trans h.opts | exact g.steps.trans h.steps
    | exact g.accepts.trans h.accepts | exact g.ts.trans h.ts | exact g.us.trans h.us
    | exact g.du.trans h.du | exact g.facold.trans h.facold

theorem Frame.retry (s : St F n P) : Frame s (retry s) := by constructor <;> simp

theorem Rejs.frame {k : Nat} {s s' : St F n P} (h : Rejs k s s') : Frame s s' := by
  induction h with
  | zero s => exact .refl s
  | succ _ _ ih => exact (Frame.retry _).trans ih

/-- Fields `clampLast` leaves alone. -/
theorem Frame.clampLast (s : St F n P) : Frame s (clampLast s) := by
  unfold DP5.clampLast; split <;> constructor <;> rfl

theorem Rejs.reject {k : Nat} {s s' : St F n P} (h : Rejs k s s') :
    s'.cache.reject = if k = 0 then s.cache.reject else true := by
  induction h with
  | zero s => simp
  | succ _ _ ih => simp [ih]

theorem Rejs.last {k : Nat} {s s' : St F n P} (h : Rejs k s s') :
    s'.cache.last = if k = 0 then s.cache.last else false := by
  induction h with
  | zero s => simp
  | succ _ _ ih => simp [ih]

section finish
variable (s : St F n P)
@[simp] theorem finishStep_dudt : (finishStep s).dudt = s.dudt := by
  simp only [finishStep]; repeat' split
  all_goals rfl
@[simp] theorem finishStep_dfdt : (finishStep s).dfdt = s.dfdt := by
  simp only [finishStep]; repeat' split
  all_goals rfl
@[simp] theorem finishStep_dfdu : (finishStep s).dfdu = s.dfdu := by
  simp only [finishStep]; repeat' split
  all_goals rfl
@[simp] theorem finishStep_params : (finishStep s).params = s.params := by
  simp only [finishStep]; repeat' split
  all_goals rfl
@[simp] theorem finishStep_u : (finishStep s).u = s.u := by
  simp only [finishStep]; repeat' split
  all_goals rfl
@[simp] theorem finishStep_t : (finishStep s).t = s.t := by
  simp only [finishStep]; repeat' split
  all_goals rfl
@[simp] theorem finishStep_dt : (finishStep s).dt = s.dt := by
  simp only [finishStep]; repeat' split
  all_goals rfl
@[simp] theorem finishStep_uprev : (finishStep s).uprev = s.uprev := by
  simp only [finishStep]; repeat' split
  all_goals rfl
@[simp] theorem finishStep_tprev : (finishStep s).tprev = s.tprev := by
  simp only [finishStep]; repeat' split
  all_goals rfl
@[simp] theorem finishStep_dtprev : (finishStep s).dtprev = s.dtprev := by
  simp only [finishStep]; repeat' split
  all_goals rfl
@[simp] theorem finishStep_tdir : (finishStep s).tdir = s.tdir := by
  simp only [finishStep]; repeat' split
  all_goals rfl
@[simp] theorem finishStep_tfinal : (finishStep s).tfinal = s.tfinal := by
  simp only [finishStep]; repeat' split
  all_goals rfl
@[simp] theorem finishStep_opts : (finishStep s).opts = s.opts := by
  simp only [finishStep]; repeat' split
  all_goals rfl
@[simp] theorem finishStep_trace : (finishStep s).trace = s.trace := by
  simp only [finishStep]; repeat' split
  all_goals rfl
@[simp] theorem finishStep_cache : (finishStep s).cache = s.cache := by
  simp only [finishStep]; repeat' split
  all_goals rfl
@[simp] theorem finishStep_stats : (finishStep s).stats =
    { s.stats with steps := s.stats.steps + 1 } := by
  simp only [finishStep]; repeat' split
  all_goals rfl
@[simp] theorem finishStep_ts : (finishStep s).sol.ts = s.sol.ts ++ [s.t] := by
  simp only [finishStep]; repeat' split
  all_goals rfl
@[simp] theorem finishStep_us : (finishStep s).sol.us = s.sol.us ++ [s.u] := by
  simp only [finishStep]; repeat' split
  all_goals rfl
theorem finishStep_retcode : (finishStep s).sol.retcode =
    if s.cache.last then .Success
    else if s.stats.steps + 1 > s.opts.max_steps then .MaxIters else s.sol.retcode := by
  simp only [finishStep]
  by_cases h1 : s.cache.last <;> by_cases h2 : s.stats.steps + 1 > s.opts.max_steps <;>
    simp [h1, h2, Solution.push]
end finish

end DP5
end Cyphus
