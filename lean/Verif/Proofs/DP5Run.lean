import Verif.Proofs.DP5X
import Verif.Proofs.Run
/-!
# Runs of `DormandPrince5` in exact arithmetic
-/

namespace Cyphus
namespace DP5
open X
set_option linter.unusedSectionVars false
set_option autoImplicit false
noncomputable section
variable {n : ℕ} {P : Type}

/-- The state belongs to the problem `E` and stands at `(t, u)` with proposed step `h`. -/
structure Good (E : Env n) (s : St X n P) (t : ℝ) (u : Fin n → ℝ) (h : ℝ) : Prop where
  num : Num s E.f t u h
  tol : Tol s.opts E.a E.r
  ctl : Ctl s.opts E.sf E.fl E.fr E.be E.mx
  tdir : s.tdir = fin E.d
  tfinal : s.tfinal = fin E.tf
  dim : n ≠ 0

/-- The error estimate of a step of size `h` from `(t, u)`. -/
def Env.err (E : Env n) (t : ℝ) (u : Fin n → ℝ) (h : ℝ) : ℝ := errR E.a E.r E.f t u h

/-- The result of a step. -/
def Env.next (E : Env n) (t : ℝ) (u : Fin n → ℝ) (h : ℝ) : Fin n → ℝ := unewR E.f t u h

/-- The reduced step. -/
def Env.shrink (E : Env n) (t : ℝ) (u : Fin n → ℝ) (h : ℝ) : ℝ :=
  DP5.shrink E.sf E.fl E.be (E.err t u h) h

section
variable {E : Env n} {s s' : St X n P} {t : ℝ} {u : Fin n → ℝ} {h : ℝ}

theorem Good.err (G : Good E s t u h) : errOf s = fin (E.err t u h) := G.num.err G.tol G.dim

theorem Good.le_iff (G : Good E s t u h) : Fl.le (errOf s) 1.0 = decide (E.err t u h ≤ 1) := by
  rw [G.err, X.sci, le_fin]; norm_num

theorem Good.retry (G : Good E s t u h) (hr : Fl.le (errOf s) 1.0 = false) :
    Good E (retry s) t u (E.shrink t u h) :=
  ⟨G.num.retry G.ctl G.err hr, by simpa using G.tol, by simpa using G.ctl, by simpa using G.tdir,
   by simpa using G.tfinal, G.dim⟩

theorem Good.clampLast (G : Good E s t u h) :
    Good E (clampLast s) t u (if (t + 1.01 * h - E.tf) * E.d > 0 then E.tf - t else h) := by
  have F := Frame.clampLast s
  exact ⟨(G.num.clampLast G.tdir G.tfinal).1, by rw [F.opts]; exact G.tol, by rw [F.opts]; exact G.ctl,
    by rw [F.tdir]; exact G.tdir, by rw [F.tfinal]; exact G.tfinal, G.dim⟩

theorem Good.clamp_last (G : Good E s t u h) : (DP5.clampLast s).cache.last =
    if (t + 1.01 * h - E.tf) * E.d > 0 then true else s.cache.last :=
  (G.num.clampLast G.tdir G.tfinal).2

theorem Good.accepted (G : Good E s t u h) : ∃ q, 1 / E.fr ≤ q ∧ q ≤ max (1 / E.fl) (1 / E.fr) ∧
    Good E (accepted s) (t + h) (E.next t u h) (nextH E.mx E.d s.cache.reject h q) := by
  obtain ⟨q, h1, h2, N⟩ := G.num.accepted G.ctl G.tdir
  exact ⟨q, h1, h2, N, by simpa using G.tol, by simpa using G.ctl, by simpa using G.tdir,
    by simpa using G.tfinal, G.dim⟩

theorem Good.finishStep (G : Good E s t u h) : Good E (finishStep s) t u h :=
  ⟨G.num.finishStep, by simpa using G.tol, by simpa using G.ctl, by simpa using G.tdir,
   by simpa using G.tfinal, G.dim⟩

/-- A sequence of rejected attempts. -/
inductive RejH (E : Env n) (t : ℝ) (u : Fin n → ℝ) : ℕ → ℝ → ℝ → Prop
  | zero (h0 : ℝ) : RejH E t u 0 h0 h0
  | succ {k : ℕ} {h1 h2 : ℝ} : 1 < E.err t u h1 → RejH E t u k (E.shrink t u h1) h2 → RejH E t u (k + 1) h1 h2

theorem Good.rejs (G : Good E s t u h) {k : ℕ} (hr : Rejs k s s') :
    ∃ h', RejH E t u k h h' ∧ Good E s' t u h' := by
  induction hr generalizing h with
  | zero s => exact ⟨h, .zero h, G⟩
  | succ h1 _ ih =>
    obtain ⟨h', h2, h3⟩ := ih (G.retry h1)
    rw [G.le_iff] at h1
    exact ⟨h', .succ (by simpa using h1) h2, h3⟩

/-- The step size tried first. -/
def Env.first (E : Env n) (t h : ℝ) : ℝ := if (t + 1.01 * h - E.tf) * E.d > 0 then E.tf - t else h

/-- What one `step()` call does: reduce the step until the error is at most one, move to the Runge-Kutta
result. -/
theorem Good.step (G : Good E s t u h) {fuel : ℕ} (hs : step fuel s = .ok s') :
    ∃ k h1 q, RejH E t u k (E.first t h) h1 ∧ E.err t u h1 ≤ 1 ∧
      1 / E.fr ≤ q ∧ q ≤ max (1 / E.fl) (1 / E.fr) ∧
      Good E s' (t + h1) (E.next t u h1)
        (nextH E.mx E.d (if k = 0 then s.cache.reject else true) h1 q) ∧
      s'.cache.last = (if k = 0 then (if (t + 1.01 * h - E.tf) * E.d > 0 then true else s.cache.last)
        else false) ∧ s'.dtprev = fin h1 ∧ StepSpec k s s' := by
  obtain ⟨k, s1, hk, hr, he, hm, rfl, sp⟩ := step_spec hs
  obtain ⟨h1, r1, G1⟩ := G.clampLast.rejs hr
  obtain ⟨q, q1, q2, G2⟩ := G1.accepted
  refine ⟨k, h1, q, r1, ?_, q1, q2, ?_, ?_, ?_, sp⟩
  · rw [G1.le_iff] at he; simpa using he
  · have := G2.finishStep
    rw [hr.reject, (clampLast_stats s).2.2.2] at this
    exact this
  · rw [finishStep_cache, accepted_last, hr.last, G.clamp_last]
  · rw [finishStep_dtprev, accepted_dtprev, G1.num.dt]

end

theorem Problem.build {E : Env n} {b : Builder X n P} {t0 : ℝ} {u0 : Fin n → ℝ}
    (H : Problem E b t0 u0) {s : St X n P} (h : b.build alg = .ok s) :
    Good E s t0 u0 1e-6 ∧ s.cache.reject = false ∧ s.cache.last = false ∧
      s.sol.ts = [fin t0] ∧ s.sol.us = [fv u0] ∧ s.sol.retcode = .Continue ∧ s.stats = Stats.new ∧
      s.trace = [Call.rhs (fin t0) (fv u0)] ∧ s.cache.facold = fin 0 := by
  have h' : s = _ := (Res.ok.inj h).symm
  subst h'
  refine ⟨⟨⟨H.t, H.u, H.dt, ?_, H.rhs⟩, H.tol, H.ctl, ?_, H.tfinal, H.dim⟩, rfl, rfl, ?_, ?_, rfl, rfl, ?_, ?_⟩
  · change b.dudt b.params _ b.u b.t = _
    rw [H.u, H.t, H.rhs]
  · change Fl.copysign 1.0 (b.tfinal - b.t) = _
    rw [H.tfinal, H.t, X.sci, sub_fin, copysign_fin, H.dir]
    norm_num
  · simp [Solution.push, Solution.new, H.t]
  · simp [Solution.push, Solution.new, H.u]
  · change [Call.rhs b.t b.u] = _
    rw [H.t, H.u]
  · change (0.0 : X) = _
    rw [X.sci]; norm_num

end
end DP5
end Cyphus
