import Verif.Radau.Model
import Verif.Ode.Run
/-!
# Structure of a `Radau5` step (any arithmetic)
-/

namespace Cyphus
namespace Radau
set_option linter.unusedSectionVars false
variable {F : Type} {n : Nat} {P : Type}
  [Add F] [Sub F] [Mul F] [Div F] [Neg F] [OfScientific F] [Fl F]

/-- Fields which only an accepted step changes. -/
structure Frame (s s' : St F n P) : Prop where
  dudt : s'.dudt = s.dudt
  dfdt : s'.dfdt = s.dfdt
  dfdu : s'.dfdu = s.dfdu
  params : s'.params = s.params
  u : s'.u = s.u
  t : s'.t = s.t
  uprev : s'.uprev = s.uprev
  tprev : s'.tprev = s.tprev
  dtprev : s'.dtprev = s.dtprev
  tdir : s'.tdir = s.tdir
  tfinal : s'.tfinal = s.tfinal
  opts : s'.opts = s.opts
  accepts : s'.stats.accepts = s.stats.accepts
  jacobian_evals : s'.stats.jacobian_evals = s.stats.jacobian_evals
  ts : s'.sol.ts = s.sol.ts
  us : s'.sol.us = s.sol.us
  first : s'.cache.first = s.cache.first
  caljac : s'.cache.caljac = s.cache.caljac
  scal : s'.cache.scal = s.cache.scal
  u0 : s'.cache.u0 = s.cache.u0
  dtopt : s'.cache.dtopt = s.cache.dtopt
  dtacc : s'.cache.dtacc = s.cache.dtacc
  erracc : s'.cache.erracc = s.cache.erracc
  cfac : s'.cache.cfac = s.cache.cfac
  cont1 : s'.cache.cont1 = s.cache.cont1
  cont2 : s'.cache.cont2 = s.cache.cont2
  cont3 : s'.cache.cont3 = s.cache.cont3

theorem Frame.refl (s : St F n P) : Frame s s := by constructor <;> rfl

theorem Frame.trans {a b c : St F n P} (h : Frame a b) (g : Frame b c) : Frame a c where
  dudt := g.dudt.trans h.dudt
  dfdt := g.dfdt.trans h.dfdt
  dfdu := g.dfdu.trans h.dfdu
  params := g.params.trans h.params
  u := g.u.trans h.u
  t := g.t.trans h.t
  uprev := g.uprev.trans h.uprev
  tprev := g.tprev.trans h.tprev
  dtprev := g.dtprev.trans h.dtprev
  tdir := g.tdir.trans h.tdir
  tfinal := g.tfinal.trans h.tfinal
  opts := g.opts.trans h.opts
  accepts := g.accepts.trans h.accepts
  jacobian_evals := g.jacobian_evals.trans h.jacobian_evals
  ts := g.ts.trans h.ts
  us := g.us.trans h.us
  first := g.first.trans h.first
  caljac := g.caljac.trans h.caljac
  scal := g.scal.trans h.scal
  u0 := g.u0.trans h.u0
  dtopt := g.dtopt.trans h.dtopt
  dtacc := g.dtacc.trans h.dtacc
  erracc := g.erracc.trans h.erracc
  cfac := g.cfac.trans h.cfac
  cont1 := g.cont1.trans h.cont1
  cont2 := g.cont2.trans h.cont2
  cont3 := g.cont3.trans h.cont3

theorem Frame.refreshJac (s : St F n P) : Frame s (refreshJac s) := by constructor <;> rfl

theorem Frame.halveStep (s : St F n P) : Frame s (halveStep s) := by
  simp only [Radau.halveStep]; split <;> constructor <;> rfl

theorem Frame.clampLast (s : St F n P) : Frame s (clampLast s) := by
  simp only [Radau.clampLast]; split <;> constructor <;> rfl

theorem Frame.decFail (s : St F n P) : Frame s (decFail s) := by
  simp only [Radau.decFail]; split
  · constructor <;> rfl
  · exact Frame.trans (b := { s with cache := { s.cache with nsing := s.cache.nsing + 1 } })
      (by constructor <;> rfl) (.halveStep _)

/-- The states between the two decompositions. -/
theorem decomp_real_ok {s s' : St F n P} {ier : Nat} (h : decomp_real s = .ok (s', ier)) :
    ∃ r, Linalg.dec n (extM fun i j => s.cache.fac1 * eye i j - s.cache.dfdu i j) s.cache.ip1
        = .ok (r, ier) ∧
      s' = { s with cache := { s.cache with e1 := resM r.a, ip1 := r.ip } } := by
  simp only [decomp_real, Res.bind_eq_ok] at h
  obtain ⟨⟨r, i⟩, h1, h2⟩ := h
  simp only [Res.ok.injEq, Prod.mk.injEq] at h2
  obtain ⟨h2, rfl⟩ := h2
  exact ⟨r, h1, h2.symm⟩

theorem decomp_complex_ok {s s' : St F n P} {ier : Nat} (h : decomp_complex s = .ok (s', ier)) :
    ∃ r, Linalg.decc n (extM fun i j => s.cache.alphn * eye i j - s.cache.dfdu i j)
        (extM (n := n) fun i j => s.cache.betan * eye i j) s.cache.ip2 = .ok (r, ier) ∧
      s' = { s with cache := { s.cache with e2r := resM r.ar, e2i := resM r.ai, ip2 := r.ip } } := by
  simp only [decomp_complex, Res.bind_eq_ok] at h
  obtain ⟨⟨r, i⟩, h1, h2⟩ := h
  simp only [Res.ok.injEq, Prod.mk.injEq] at h2
  obtain ⟨h2, rfl⟩ := h2
  exact ⟨r, h1, h2.symm⟩

/-- The state after setting `fac1`, `alphn`, `betan`. -/
def setFacs (s : St F n P) : St F n P :=
  { s with cache := { s.cache with fac1 := U1 / s.dt, alphn := ALPHA / s.dt, betan := BETA / s.dt } }

/-- Case analysis of `perform_decompositions`. -/
theorem perform_ok {s s' : St F n P} {b : Bool} (h : perform_decompositions s = .ok (s', b)) :
    (b = true ∧ ∃ s1 s2, decomp_real (setFacs s) = .ok (s1, 0) ∧ decomp_complex s1 = .ok (s2, 0) ∧
      s' = { s2 with stats := { s2.stats with decompositions := s2.stats.decompositions + 1 } }) ∨
    (b = false ∧ ∃ s1, s' = decFail s1 ∧ ((∃ ier, decomp_real (setFacs s) = .ok (s1, ier)) ∨
      ∃ s0 ier, decomp_real (setFacs s) = .ok (s0, 0) ∧ decomp_complex s0 = .ok (s1, ier))) := by
  simp only [perform_decompositions, Res.bind_eq_ok] at h
  obtain ⟨⟨s1, ier⟩, h1, h2⟩ := h
  simp only at h2
  split at h2
  · rename_i hi
    subst hi
    rw [Res.bind_eq_ok] at h2
    obtain ⟨⟨s2, ier2⟩, h3, h4⟩ := h2
    simp only at h4
    split at h4
    · rename_i hi
      subst hi
      simp only [Res.ok.injEq, Prod.mk.injEq] at h4
      exact .inl ⟨h4.2.symm, s1, s2, h1, h3, h4.1.symm⟩
    · simp only [Res.ok.injEq, Prod.mk.injEq] at h4
      exact .inr ⟨h4.2.symm, s2, h4.1.symm, .inr ⟨s1, ier2, h1, h3⟩⟩
  · simp only [Res.ok.injEq, Prod.mk.injEq] at h2
    exact .inr ⟨h2.2.symm, s1, h2.1.symm, .inl ⟨ier, h1⟩⟩

theorem Frame.decomp_real {s s' : St F n P} {ier : Nat} (h : decomp_real s = .ok (s', ier)) :
    Frame s s' := by
  obtain ⟨r, -, rfl⟩ := decomp_real_ok h; constructor <;> rfl

theorem Frame.decomp_complex {s s' : St F n P} {ier : Nat} (h : decomp_complex s = .ok (s', ier)) :
    Frame s s' := by
  obtain ⟨r, -, rfl⟩ := decomp_complex_ok h; constructor <;> rfl

theorem Frame.setFacs (s : St F n P) : Frame s (setFacs s) := by constructor <;> rfl

theorem Frame.perform {s s' : St F n P} {b : Bool} (h : perform_decompositions s = .ok (s', b)) :
    Frame s s' := by
  obtain ⟨-, s1, s2, h1, h2, rfl⟩ | ⟨-, s1, rfl, ⟨ier, h1⟩ | ⟨s0, ier, h1, h2⟩⟩ := perform_ok h
  · exact (Frame.setFacs s).trans ((Frame.decomp_real h1).trans ((Frame.decomp_complex h2).trans
      (by constructor <;> rfl)))
  · exact (Frame.setFacs s).trans ((Frame.decomp_real h1).trans (.decFail _))
  · exact (Frame.setFacs s).trans ((Frame.decomp_real h1).trans
      ((Frame.decomp_complex h2).trans (.decFail _)))

theorem Frame.decLoop {fuel : Nat} {s s' : St F n P} {b : Bool} (h : decLoop fuel s = .ok (s', b)) :
    Frame s s' := by
  induction fuel generalizing s with
  | zero => simp [Radau.decLoop] at h
  | succ f ih =>
    rw [Radau.decLoop, Res.bind_eq_ok] at h
    obtain ⟨⟨s1, b1⟩, h1, h2⟩ := h
    simp only at h2
    split at h2
    · simp only [Res.ok.injEq, Prod.mk.injEq] at h2
      exact h2.1 ▸ Frame.perform h1
    · split at h2
      · simp only [Res.ok.injEq, Prod.mk.injEq] at h2
        exact h2.1 ▸ Frame.perform h1
      · exact (Frame.perform h1).trans (ih h2)

theorem Frame.decPhase {fuel : Nat} {s s' : St F n P} {b : Bool} (h : decPhase fuel s = .ok (s', b)) :
    Frame s s' := by
  unfold Radau.decPhase at h
  split at h
  · exact Frame.decLoop h
  · simp only [Res.ok.injEq, Prod.mk.injEq] at h
    exact h.1 ▸ .refl _

/-- The return code after the decompositions: untouched on success, and not `Continue` on failure. -/
theorem perform_retcode {s s' : St F n P} {b : Bool} (h : perform_decompositions s = .ok (s', b)) :
    s'.sol.retcode = s.sol.retcode ∨ (b = false ∧ s'.sol.retcode = .SingularMatrix) := by
  have hf : ∀ s : St F n P, (decFail s).sol.retcode = s.sol.retcode ∨
      (decFail s).sol.retcode = .SingularMatrix := by
    intro s
    simp only [decFail, halveStep]
    split
    · exact .inr rfl
    · split <;> exact .inl rfl
  obtain ⟨-, s1, s2, h1, h2, rfl⟩ | ⟨hb, s1, rfl, ⟨ier, h1⟩ | ⟨s0, ier, h1, h2⟩⟩ := perform_ok h
  · obtain ⟨r, -, rfl⟩ := decomp_real_ok h1
    obtain ⟨r, -, rfl⟩ := decomp_complex_ok h2
    exact .inl rfl
  · obtain ⟨r, -, rfl⟩ := decomp_real_ok h1
    obtain h | h := hf { setFacs s with cache := { (setFacs s).cache with e1 := resM r.a, ip1 := r.ip } }
    · exact .inl h
    · exact .inr ⟨hb, h⟩
  · obtain ⟨r, -, rfl⟩ := decomp_real_ok h1
    obtain ⟨r', -, rfl⟩ := decomp_complex_ok h2
    exact (hf _).elim .inl fun h => .inr ⟨hb, h⟩

theorem decLoop_retcode {fuel : Nat} {s s' : St F n P} {b : Bool} (h : decLoop fuel s = .ok (s', b)) :
    (b = true ∧ s'.sol.retcode = s.sol.retcode) ∨
    (b = false ∧ s'.sol.retcode ≠ .Continue ∧
      (s'.sol.retcode = s.sol.retcode ∨ s'.sol.retcode = .SingularMatrix)) := by
  induction fuel generalizing s with
  | zero => simp [decLoop] at h
  | succ f ih =>
    rw [decLoop, Res.bind_eq_ok] at h
    obtain ⟨⟨s1, b1⟩, h1, h2⟩ := h
    have hr := perform_retcode h1
    simp only at h2
    split at h2
    · rename_i hb
      simp only [Res.ok.injEq, Prod.mk.injEq] at h2
      obtain ⟨rfl, rfl⟩ := h2
      simp [hb] at hr
      exact .inl ⟨rfl, hr⟩
    · split at h2
      · rename_i hb hc
        simp only [Res.ok.injEq, Prod.mk.injEq] at h2
        obtain ⟨rfl, rfl⟩ := h2
        exact .inr ⟨rfl, hc, hr.imp_right (·.2)⟩
      · rename_i hc
        simp only [ne_eq, Decidable.not_not] at hc
        have hs : s.sol.retcode = .Continue := by
          obtain h | ⟨-, h⟩ := hr
          · rw [← h, hc]
          · simp [hc] at h
        have := ih h2
        rw [hc] at this
        rw [hs]
        exact this

theorem decPhase_retcode {fuel : Nat} {s s' : St F n P} {b : Bool}
    (h : decPhase fuel s = .ok (s', b)) :
    (b = true ∧ s'.sol.retcode = s.sol.retcode) ∨
    (b = false ∧ s'.sol.retcode ≠ .Continue ∧
      (s'.sol.retcode = s.sol.retcode ∨ s'.sol.retcode = .SingularMatrix)) := by
  unfold decPhase at h
  split at h
  · exact decLoop_retcode h
  · simp only [Res.ok.injEq, Prod.mk.injEq] at h
    exact .inl ⟨h.2.symm, by rw [h.1]⟩

/-! ### More fuel does not change a result -/

theorem decLoop_mono {f g : Nat} {s : St F n P} {r : St F n P × Bool} (h : decLoop f s = .ok r)
    (hfg : f ≤ g) : decLoop g s = .ok r := by
  induction f generalizing s g with
  | zero => simp [decLoop] at h
  | succ f ih =>
    obtain ⟨g, rfl⟩ : ∃ k, g = k + 1 := ⟨g - 1, by omega⟩
    rw [decLoop, Res.bind_eq_ok] at h ⊢
    obtain ⟨⟨s1, b1⟩, h1, h2⟩ := h
    refine ⟨⟨s1, b1⟩, h1, ?_⟩
    simp only at h2 ⊢
    by_cases hb : b1 = true
    · simpa [hb] using h2
    · by_cases hc : s1.sol.retcode = .Continue
      · simp only [hb, hc] at h2 ⊢
        exact ih h2 (by omega)
      · simpa [hb, hc] using h2

theorem decPhase_mono {f g : Nat} {s : St F n P} {r : St F n P × Bool} (h : decPhase f s = .ok r)
    (hfg : f ≤ g) : decPhase g s = .ok r := by
  unfold decPhase at *
  by_cases hd : s.cache.decompose = true
  · simp only [hd, if_true] at h ⊢
    exact decLoop_mono h hfg
  · simpa [hd] using h

/-! ### The Newton iteration -/

theorem Frame.slowStep (s : St F n P) (d : F) : Frame s (slowStep s d) := by
  simp only [Radau.slowStep]; split <;> constructor <;> rfl

theorem Frame.newtonCheck (s : St F n P) (a b : F) : Frame s (newtonCheck s a b).1 := by
  simp only [Radau.newtonCheck]
  split
  · split
    · split
      · exact Frame.trans (by constructor <;> rfl) (.slowStep _ _)
      · constructor <;> rfl
    · exact Frame.trans (by constructor <;> rfl) (.halveStep _)
  · exact .refl _

theorem Frame.newtonLoop {fuel : Nat} {s s' : St F n P} {d : F} {b : Bool}
    (h : newtonLoop fuel s d = .ok (s', b)) : Frame s s' := by
  induction fuel generalizing s d with
  | zero => simp [Radau.newtonLoop] at h
  | succ f ih =>
    simp only [Radau.newtonLoop] at h
    split at h
    · simp only [Res.ok.injEq, Prod.mk.injEq] at h
      exact h.1 ▸ .halveStep _
    · have h0 : Frame s (newtonSolve (newtonRhs s)) := by constructor <;> rfl
      have h1 := h0.trans (Frame.newtonCheck _ (newtonNorm (newtonSolve (newtonRhs s))) d)
      split at h
      · simp only [Res.ok.injEq, Prod.mk.injEq] at h
        exact h.1 ▸ h1
      · have h2 : ∀ s : St F n P, Frame s (newtonUpdate s) := by intro s; constructor <;> rfl
        split at h
        · simp only [Res.ok.injEq, Prod.mk.injEq] at h
          exact h.1 ▸ h1.trans (h2 _)
        · exact (h1.trans (h2 _)).trans (ih h)

/-- The state `newton` starts its loop with. -/
def newtonInit (s : St F n P) : St F n P :=
  let s := prepare_newton s
  { s with cache := { s.cache with
    newt := 0
    faccon := Fl.powf (Fl.max s.cache.faccon Fl.eps) 0.8
    theta := Fl.abs s.opts.theta } }

theorem newton_eq (s : St F n P) :
    newton s = newtonLoop (s.opts.max_newt_iter + 1) (newtonInit s) 0.0 := by
  simp only [newton, newtonInit, prepare_newton]
  split <;> rfl

theorem Frame.newtonInit (s : St F n P) : Frame s (newtonInit s) := by
  simp only [Radau.newtonInit, prepare_newton]
  split <;> constructor <;> rfl

theorem Frame.newton {s s' : St F n P} {b : Bool} (h : newton s = .ok (s', b)) : Frame s s' := by
  rw [newton_eq] at h
  exact (Frame.newtonInit s).trans (Frame.newtonLoop h)

/-- `sol` and `steps` are untouched by the Newton iteration. -/
theorem halveStep_sol (s : St F n P) : (halveStep s).sol = s.sol ∧
    (halveStep s).stats = s.stats := by
  simp only [halveStep]; split <;> exact ⟨rfl, rfl⟩

theorem slowStep_sol (s : St F n P) (d : F) : (slowStep s d).sol = s.sol ∧
    (slowStep s d).stats = s.stats ∧ (slowStep s d).cache.newt = s.cache.newt := by
  simp only [slowStep]; split <;> exact ⟨rfl, rfl, rfl⟩

theorem halveStep_newt (s : St F n P) : (halveStep s).cache.newt = s.cache.newt := by
  simp only [halveStep]; split <;> rfl

theorem newtonCheck_sol (s : St F n P) (a b : F) : (newtonCheck s a b).1.sol = s.sol ∧
    (newtonCheck s a b).1.stats = s.stats := by
  simp only [newtonCheck]
  split
  · split
    · split
      · exact ⟨(slowStep_sol _ _).1, (slowStep_sol _ _).2.1⟩
      · exact ⟨rfl, rfl⟩
    · exact halveStep_sol _
  · exact ⟨rfl, rfl⟩

theorem newtonCheck_newt (s : St F n P) (a b : F) :
    (newtonCheck s a b).1.cache.newt = s.cache.newt := by
  simp only [newtonCheck]
  split
  · split
    · split
      · exact (slowStep_sol _ _).2.2
      · rfl
    · exact halveStep_newt _
  · rfl

theorem newtonLoop_sol {fuel : Nat} {s s' : St F n P} {d : F} {b : Bool}
    (h : newtonLoop fuel s d = .ok (s', b)) :
    s'.sol = s.sol ∧ s'.stats.steps = s.stats.steps ∧ s'.stats.rejects = s.stats.rejects ∧
    s'.stats.decompositions = s.stats.decompositions := by
  induction fuel generalizing s d with
  | zero => simp [Radau.newtonLoop] at h
  | succ f ih =>
    simp only [Radau.newtonLoop] at h
    split at h
    · simp only [Res.ok.injEq, Prod.mk.injEq] at h
      rw [← h.1]
      simp [halveStep_sol]
    · have h1 := newtonCheck_sol (newtonSolve (newtonRhs s)) (newtonNorm (newtonSolve (newtonRhs s))) d
      have h0 : (newtonSolve (newtonRhs s)).sol = s.sol := rfl
      split at h
      · simp only [Res.ok.injEq, Prod.mk.injEq] at h
        rw [← h.1, h1.1, h1.2]
        exact ⟨rfl, rfl, rfl, rfl⟩
      · split at h
        · simp only [Res.ok.injEq, Prod.mk.injEq] at h
          rw [← h.1]
          simp only [newtonUpdate, h1.1, h1.2]
          exact ⟨rfl, rfl, rfl, rfl⟩
        · have := ih h
          simp only [newtonUpdate, h1.1, h1.2] at this
          exact this

theorem newton_sol {s s' : St F n P} {b : Bool} (h : newton s = .ok (s', b)) :
    s'.sol = s.sol ∧ s'.stats.steps = s.stats.steps ∧ s'.stats.rejects = s.stats.rejects ∧
    s'.stats.decompositions = s.stats.decompositions := by
  rw [newton_eq] at h
  have := newtonLoop_sol h
  have h0 : (newtonInit s).sol = s.sol ∧ (newtonInit s).stats = s.stats := by
    simp only [newtonInit, prepare_newton]
    split <;> exact ⟨rfl, rfl⟩
  rw [h0.1, h0.2] at this
  exact this

theorem newtonCheck_opts (s : St F n P) (a b : F) : (newtonCheck s a b).1.opts = s.opts :=
  (Frame.newtonCheck s a b).opts

/-- The Newton loop never runs out of its fuel. -/
theorem newtonLoop_total {fuel : Nat} {s : St F n P} {d : F}
    (h : s.opts.max_newt_iter + 1 ≤ fuel + s.cache.newt) (hf : 1 ≤ fuel) :
    ∃ r, newtonLoop fuel s d = .ok r := by
  induction fuel generalizing s d with
  | zero => omega
  | succ f ih =>
    simp only [newtonLoop]
    split
    · exact ⟨_, rfl⟩
    · rename_i hlt
      split
      · exact ⟨_, rfl⟩
      · split
        · exact ⟨_, rfl⟩
        · apply ih
          · have h1 := newtonCheck_newt (newtonSolve (newtonRhs s))
              (newtonNorm (newtonSolve (newtonRhs s))) d
            have h2 := newtonCheck_opts (newtonSolve (newtonRhs s))
              (newtonNorm (newtonSolve (newtonRhs s))) d
            simp only [newtonUpdate, h1, h2]
            have h3 : (newtonSolve (newtonRhs s)).cache.newt = s.cache.newt + 1 := rfl
            have h4 : (newtonSolve (newtonRhs s)).opts = s.opts := rfl
            rw [h3, h4]; omega
          · omega

theorem newton_total (s : St F n P) : ∃ s' b, newton s = .ok (s', b) := by
  rw [newton_eq]
  have h0 : (newtonInit s).opts = s.opts := (Frame.newtonInit s).opts
  obtain ⟨⟨s', b⟩, h⟩ := newtonLoop_total (fuel := s.opts.max_newt_iter + 1) (s := newtonInit s)
    (d := 0.0) (by rw [h0]; omega) (by omega)
  exact ⟨s', b, h⟩

/-! ### Error estimate and step size control -/

theorem Frame.error_estimate (s : St F n P) : Frame s (error_estimate s) := by
  simp only [Radau.error_estimate]
  split
  · constructor <;> rfl
  · split <;> constructor <;> rfl

theorem error_estimate_sol (s : St F n P) : (error_estimate s).sol = s.sol ∧
    (error_estimate s).stats.steps = s.stats.steps ∧
    (error_estimate s).stats.rejects = s.stats.rejects ∧ (error_estimate s).dt = s.dt ∧
    (error_estimate s).stats.decompositions = s.stats.decompositions ∧
    (error_estimate s).stats.linear_solves = s.stats.linear_solves ∧
    (error_estimate s).cache.last = s.cache.last ∧ (error_estimate s).cache.reject = s.cache.reject ∧
    (error_estimate s).cache.z1 = s.cache.z1 ∧ (error_estimate s).cache.z2 = s.cache.z2 ∧
    (error_estimate s).cache.z3 = s.cache.z3 ∧ (error_estimate s).cache.dfdu = s.cache.dfdu ∧
    (error_estimate s).cache.theta = s.cache.theta ∧ (error_estimate s).cache.newt = s.cache.newt := by
  simp only [error_estimate]
  split
  · exact ⟨rfl, rfl, rfl, rfl, rfl, rfl, rfl, rfl, rfl, rfl, rfl, rfl, rfl, rfl⟩
  · split <;> exact ⟨rfl, rfl, rfl, rfl, rfl, rfl, rfl, rfl, rfl, rfl, rfl, rfl, rfl, rfl⟩

theorem Frame.rejectStep (s : St F n P) (q : F) : Frame s (rejectStep s q) := by
  simp only [Radau.rejectStep]
  split <;> split <;> constructor <;> rfl

theorem rejectStep_fields (s : St F n P) (q : F) : (rejectStep s q).sol = s.sol ∧
    (rejectStep s q).stats.steps = s.stats.steps ∧ (rejectStep s q).cache.reject = true ∧
    (rejectStep s q).cache.last = false ∧ (rejectStep s q).cache.decompose = s.cache.decompose ∧
    (rejectStep s q).stats.rejects =
      (if s.stats.accepts ≥ 1 then s.stats.rejects + 1 else s.stats.rejects) ∧
    (rejectStep s q).stats.function_evals = s.stats.function_evals ∧
    (rejectStep s q).stats.linear_solves = s.stats.linear_solves ∧
    (rejectStep s q).stats.decompositions = s.stats.decompositions ∧
    (rejectStep s q).dt = (if s.cache.first then s.dt * 0.1 else s.dt / q) := by
  simp only [rejectStep]
  split <;> split <;> exact ⟨rfl, rfl, rfl, rfl, rfl, rfl, rfl, rfl, rfl, rfl⟩

theorem finishNext_fields (s : St F n P) :
    let s' := finishNext s
    s'.dudt = s.dudt ∧ s'.dfdt = s.dfdt ∧ s'.dfdu = s.dfdu ∧ s'.params = s.params ∧
    s'.u = s.u ∧ s'.t = s.t ∧ s'.uprev = s.uprev ∧ s'.tprev = s.tprev ∧ s'.dtprev = s.dtprev ∧
    s'.tdir = s.tdir ∧ s'.tfinal = s.tfinal ∧ s'.opts = s.opts ∧ s'.sol = s.sol ∧ s'.stats = s.stats ∧
    s'.cache.first = s.cache.first ∧ s'.cache.caljac = s.cache.caljac ∧
    s'.cache.reject = s.cache.reject ∧ s'.cache.last = s.cache.last ∧ s'.dt = s.dt ∧
    s'.cache.decompose = s.cache.decompose ∧ s'.cache.cont1 = s.cache.cont1 ∧
    s'.cache.cont2 = s.cache.cont2 ∧ s'.cache.cont3 = s.cache.cont3 ∧ s'.cache.u0 = s.cache.u0 ∧
    s'.cache.scal = s.cache.scal ∧ s'.cache.cont0 = s.cache.cont0 ∧ s'.cache.theta = s.cache.theta := by
  simp only [finishNext]
  split <;> simp [refreshJac]

theorem nextStep_fields (s : St F n P) (d : F) :
    let s' := nextStep s d
    s'.dudt = s.dudt ∧ s'.dfdt = s.dfdt ∧ s'.dfdu = s.dfdu ∧ s'.params = s.params ∧
    s'.u = s.u ∧ s'.t = s.t ∧ s'.uprev = s.uprev ∧ s'.tprev = s.tprev ∧ s'.dtprev = s.dtprev ∧
    s'.tdir = s.tdir ∧ s'.tfinal = s.tfinal ∧ s'.opts = s.opts ∧ s'.sol = s.sol ∧ s'.stats = s.stats ∧
    s'.cache.first = s.cache.first ∧ s'.cache.caljac = s.cache.caljac ∧
    s'.cache.reject = false ∧ s'.cache.cont1 = s.cache.cont1 ∧
    s'.cache.cont2 = s.cache.cont2 ∧ s'.cache.cont3 = s.cache.cont3 ∧ s'.cache.u0 = s.cache.u0 ∧
    s'.cache.scal = s.cache.scal ∧ s'.cache.cont0 = s.cache.cont0 := by
  simp only [nextStep]
  split
  · simp [finishNext_fields]
  · split
    · simp
    · simp [finishNext_fields]

theorem acceptState_fields (s : St F n P) :
    let s' := acceptState s
    s'.dudt = s.dudt ∧ s'.dfdt = s.dfdt ∧ s'.dfdu = s.dfdu ∧ s'.params = s.params ∧
    s'.u = (fun i => s.u i + s.cache.z3 i) ∧ s'.t = s.t + s.dt ∧ s'.uprev = s.uprev ∧
    s'.tprev = s.t ∧ s'.dtprev = s.dt ∧ s'.tdir = s.tdir ∧ s'.tfinal = s.tfinal ∧
    s'.opts = s.opts ∧ s'.sol = s.sol.push (s.t + s.dt) (fun i => s.u i + s.cache.z3 i) ∧
    s'.stats = s.stats ∧ s'.cache.first = s.cache.first ∧ s'.cache.caljac = false ∧
    s'.cache.last = s.cache.last ∧ s'.cache.reject = s.cache.reject ∧ s'.dt = s.dt ∧
    s'.cache.decompose = s.cache.decompose ∧ s'.cache.theta = s.cache.theta ∧
    s'.cache.dtopt = s.cache.dtopt ∧ s'.cache.dfdu = s.cache.dfdu ∧ s'.cache.u0 = s.cache.u0 := by
  simp only [acceptState]
  split <;> simp

/-- What every accepted step does. -/
theorem acceptStep_fields (s : St F n P) (q : F) :
    let s' := acceptStep s q
    s'.dudt = s.dudt ∧ s'.dfdt = s.dfdt ∧ s'.dfdu = s.dfdu ∧ s'.params = s.params ∧
    s'.u = (fun i => s.u i + s.cache.z3 i) ∧ s'.t = s.t + s.dt ∧ s'.uprev = s.uprev ∧
    s'.tprev = s.t ∧ s'.dtprev = s.dt ∧ s'.tdir = s.tdir ∧ s'.tfinal = s.tfinal ∧
    s'.opts = s.opts ∧ s'.sol.ts = s.sol.ts ++ [s.t + s.dt] ∧
    s'.sol.us = s.sol.us ++ [fun i => s.u i + s.cache.z3 i] ∧
    s'.sol.retcode = (if s.cache.last then .Success else s.sol.retcode) ∧
    s'.stats.accepts = s.stats.accepts + 1 ∧ s'.stats.steps = s.stats.steps ∧
    s'.stats.rejects = s.stats.rejects ∧ s'.stats.jacobian_evals = s.stats.jacobian_evals ∧
    s'.stats.decompositions = s.stats.decompositions ∧
    s'.stats.linear_solves = s.stats.linear_solves ∧
    s'.cache.first = false ∧ s'.cache.caljac = false := by
  have h := acceptState_fields (countAccept s)
  simp only [acceptStep]
  simp only at h
  generalize acceptState (countAccept s) = a at h ⊢
  simp only [countAccept] at h
  obtain ⟨h1, h2, h3, h4, h5, h6, h7, h8, h9, h10, h11, h12, h13, h14, h15, h16, h17, -⟩ := h
  split
  · rename_i hl
    rw [h17] at hl
    simp [Solution.push, *]
  · rename_i hl
    rw [h17] at hl
    simp [nextStep_fields, newDeriv, Solution.push, *]

theorem control_accept {s : St F n P} (h : Fl.lt (error_estimate s).cache.err 1.0 = true) :
    ∃ q, control s = acceptStep { error_estimate s with
      cache := { (error_estimate s).cache with decompose := true } } q :=
  ⟨_, by simp only [control, step_size_control, h, if_true]; rfl⟩

theorem control_reject {s : St F n P} (h : Fl.lt (error_estimate s).cache.err 1.0 = false) :
    ∃ q, control s = rejectStep { error_estimate s with
      cache := { (error_estimate s).cache with decompose := true } } q :=
  ⟨_, by simp [control, step_size_control, h]; rfl⟩

/-- After an accepted step `reject` is cleared unless the step was the last one. -/
theorem acceptStep_reject (s : St F n P) (q : F) (h : s.cache.last = false) :
    (acceptStep s q).cache.reject = false := by
  have h' := acceptState_fields (countAccept s)
  simp only at h'
  simp only [acceptStep]
  split
  · rename_i hl
    rw [h'.2.2.2.2.2.2.2.2.2.2.2.2.2.2.2.2.1] at hl
    simp [countAccept, h] at hl
  · simp [nextStep_fields]

end Radau
end Cyphus
