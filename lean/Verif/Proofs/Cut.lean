import Verif.Props.Ignored
/-!
# Runs that differ in `dense`, `max_steps` and `tfinal`

The parts of both algorithms that do not read these three commute with replacing them.
-/

namespace Cyphus
set_option linter.unusedSectionVars false
set_option autoImplicit false
variable {F : Type} {n : Nat} {P : Type}
variable [Add F] [Sub F] [Mul F] [Div F] [Neg F] [OfScientific F] [Fl F]

namespace DP5

/-- The same state with another step limit and another end, without dense output. -/
def cut (m : Nat) (tf : F) (s : St F n P) : St F n P :=
  { s with
    tfinal := tf
    opts := { s.opts with dense := false, max_steps := m }
    cache := { s.cache with rcont1 := fun _ => 0.0, rcont2 := fun _ => 0.0, rcont3 := fun _ => 0.0,
                            rcont4 := fun _ => 0.0, rcont5 := fun _ => 0.0 } }

section
variable (m : Nat) (tf : F) (s : St F n P)

theorem cut_errOf : errOf (cut m tf s) = errOf s := rfl

theorem cut_retry : retry (cut m tf s) = cut m tf (retry s) := by
  have h : ∀ s : St F n P, checkDtMin (cut m tf s) = cut m tf (checkDtMin s) := by
    intro s
    simp only [checkDtMin, apply_ite (cut m tf)]
    rfl
  rw [retry, retry, ← h]; rfl

theorem cut_stiffness : stiffness (cut m tf s) = cut m tf (stiffness s) := by
  simp only [stiffness]
  rw [show (cut m tf s).cache.k2 = s.cache.k2 from rfl, show (cut m tf s).cache.k6 = s.cache.k6 from rfl,
    show (cut m tf s).cache.unew = s.cache.unew from rfl,
    show (cut m tf s).cache.ustiff = s.cache.ustiff from rfl, show (cut m tf s).dt = s.dt from rfl]
  split
  · by_cases h : Fl.gt (s.dt * Fl.sqrt ((sumLoop n 0.0 fun i => (s.cache.k2 i - s.cache.k6 i) *
      (s.cache.k2 i - s.cache.k6 i)) / sumLoop n 0.0 fun i => (s.cache.unew i - s.cache.ustiff i) *
      (s.cache.unew i - s.cache.ustiff i))) 3.25 = true
    · simp only [h, if_true]; rfl
    · simp only [h]
      by_cases h2 : s.cache.n_nonstiff + 1 = 6
      · simp only [cut, h2, if_true]; rfl
      · simp only [cut, h2, if_false]; rfl
  · by_cases h : Fl.gt s.cache.dtlamb 3.25 = true
    · simp only [cut, h, if_true]
    · simp only [cut, h]
      by_cases h2 : s.cache.n_nonstiff + 1 = 6
      · simp only [h2, if_true]; rfl
      · simp only [h2, if_false]; rfl

theorem cut_acceptStep (e d : F) : acceptStep e d (cut m tf s) = cut m tf (acceptStep e d s) := by
  have key : ∀ a : St F n P,
      (let s := if (cut m tf a).opts.dense then prepare_dense (cut m tf a) else cut m tf a
        let s := { s with cache := { s.cache with du := s.cache.dunew }, uprev := s.u, u := s.cache.unew,
                          tprev := s.t, t := s.t + s.dt }
        let dtnew := if Fl.gt (Fl.abs d) s.opts.dtmax then s.tdir * s.opts.dtmax else d
        let dtnew := if s.cache.reject then s.tdir * Fl.min (Fl.abs dtnew) (Fl.abs s.dt) else dtnew
        { s with cache := { s.cache with reject := false }, dtprev := s.dt, dt := dtnew }) =
      cut m tf (let s := if a.opts.dense then prepare_dense a else a
        let s := { s with cache := { s.cache with du := s.cache.dunew }, uprev := s.u, u := s.cache.unew,
                          tprev := s.t, t := s.t + s.dt }
        let dtnew := if Fl.gt (Fl.abs d) s.opts.dtmax then s.tdir * s.opts.dtmax else d
        let dtnew := if s.cache.reject then s.tdir * Fl.min (Fl.abs dtnew) (Fl.abs s.dt) else dtnew
        { s with cache := { s.cache with reject := false }, dtprev := s.dt, dt := dtnew }) := by
    intro a
    by_cases h : a.opts.dense = true
    · rw [if_pos h]; rfl
    · rw [if_neg h]; rfl
  have e : ∀ c : F, (let s := { cut m tf s with
        cache := { (cut m tf s).cache with facold := c }
        stats := { (cut m tf s).stats with accepts := (cut m tf s).stats.accepts + 1 } }
      if s.stats.accepts % s.opts.max_stiff = 0 ∨ s.cache.n_stiff > 0 then stiffness s else s) =
      cut m tf (let s := { s with
        cache := { s.cache with facold := c }
        stats := { s.stats with accepts := s.stats.accepts + 1 } }
      if s.stats.accepts % s.opts.max_stiff = 0 ∨ s.cache.n_stiff > 0 then stiffness s else s) := by
    intro c
    by_cases h : (s.stats.accepts + 1) % s.opts.max_stiff = 0 ∨ s.cache.n_stiff > 0
    · have h' : ((cut m tf s).stats.accepts + 1) % (cut m tf s).opts.max_stiff = 0 ∨
        (cut m tf s).cache.n_stiff > 0 := h
      simp only [if_pos h, if_pos h', ← cut_stiffness]; rfl
    · have h' : ¬ (((cut m tf s).stats.accepts + 1) % (cut m tf s).opts.max_stiff = 0 ∨
        (cut m tf s).cache.n_stiff > 0) := h
      simp only [if_neg h, if_neg h']; rfl
  simp only [acceptStep]
  simp only at e
  rw [e]
  exact key _

theorem cut_accepted : accepted (cut m tf s) = cut m tf (accepted s) :=
  cut_acceptStep m tf (compute_stages s) (errOf s) (s.dt / stepFac s.opts s.cache.facold (errOf s))

theorem cut_attemptLoop (fuel : Nat) :
    attemptLoop fuel (cut m tf s) = (attemptLoop fuel s).map (cut m tf) := by
  induction fuel generalizing s with
  | zero => rfl
  | succ f ih =>
    rw [attemptLoop_succ, attemptLoop_succ, cut_errOf]
    split
    · by_cases h : s.opts.max_stiff = 0
      · rw [if_pos h, if_pos (show (cut m tf s).opts.max_stiff = 0 from h)]; rfl
      · rw [if_neg h, if_neg (show ¬ (cut m tf s).opts.max_stiff = 0 from h), cut_accepted]; rfl
    · rw [cut_retry, ih]

/-- A call of `step`: either the limit `max_steps` is exceeded, and the recorded points are the same, or the
whole result is the same. -/
theorem cut_step (fuel : Nat) (hm : s.opts.max_steps ≤ m) (h : tf = s.tfinal ∨
      Fl.gt ((s.t + 1.01 * s.dt - s.tfinal) * s.tdir) 0.0 = false ∧
      Fl.gt ((s.t + 1.01 * s.dt - tf) * s.tdir) 0.0 = false) :
    (∃ r r', step fuel s = .ok r ∧ step fuel (cut m tf s) = .ok r' ∧ s.opts.max_steps ≠ m ∧
      r.sol.retcode = .MaxIters ∧ r'.sol.ts = r.sol.ts ∧ r'.sol.us = r.sol.us) ∨
    step fuel (cut m tf s) = (step fuel s).map (cut m tf) := by
  have e : clampLast (cut m tf s) = cut m tf (clampLast s) := by
    rcases h with h | ⟨h1, h2⟩
    · subst h
      unfold clampLast; simp only [apply_ite (cut m s.tfinal)]; rfl
    · have h2' : ¬ Fl.gt (((cut m tf s).t + 1.01 * (cut m tf s).dt - (cut m tf s).tfinal) *
        (cut m tf s).tdir) 0.0 = true := by
        rw [Bool.not_eq_true]; exact h2
      unfold clampLast
      rw [if_neg h2', if_neg (by rw [h1]; simp)]
  simp only [step]
  rw [e, cut_attemptLoop]
  cases ha : attemptLoop fuel (clampLast s) with
  | panic => exact .inr rfl
  | timeout => exact .inr rfl
  | ok a =>
    have f : a.opts = s.opts := by
      obtain ⟨k, s1, -, hr, -, -, rfl⟩ := attemptLoop_ok.1 ha
      have := (Frame.clampLast s).trans hr.frame
      rw [accepted_opts, this.opts]
    rw [← f] at hm ⊢
    simp only [Res.map_ok, Res.bind_ok]
    by_cases h2 : a.cache.last = true
    · right
      have h2' : (cut m tf a).cache.last = true := h2
      by_cases h1 : a.stats.steps + 1 > a.opts.max_steps
      · by_cases h3 : a.stats.steps + 1 > m
        · have h3' : (cut m tf a).stats.steps + 1 > (cut m tf a).opts.max_steps := h3
          simp only [finishStep, h1, h2, h2', h3', if_true]; rfl
        · have h3' : ¬ (cut m tf a).stats.steps + 1 > (cut m tf a).opts.max_steps := h3
          simp only [finishStep, h1, h2, h2', h3', if_true, if_false]; rfl
      · have h3' : ¬ (cut m tf a).stats.steps + 1 > (cut m tf a).opts.max_steps := by
          intro hc
          have : a.stats.steps + 1 > m := hc
          omega
        simp only [finishStep, h1, h2, h2', h3', if_true, if_false]; rfl
    · have h2' : ¬ (cut m tf a).cache.last = true := h2
      by_cases h1 : a.stats.steps + 1 > a.opts.max_steps
      · by_cases hmm : a.opts.max_steps = m
        · right
          have h3' : (cut m tf a).stats.steps + 1 > (cut m tf a).opts.max_steps := hmm ▸ h1
          simp only [finishStep, h1, h2, h2', h3', if_true]; rfl
        · left
          refine ⟨_, _, rfl, rfl, hmm, ?_, ?_, ?_⟩
          · simp only [finishStep, h1, h2, if_true]; rfl
          · simp only [finishStep, h1, h2, h2', if_true]
            split <;> rfl
          · simp only [finishStep, h1, h2, h2', if_true]
            split <;> rfl
      · right
        have h3' : ¬ (cut m tf a).stats.steps + 1 > (cut m tf a).opts.max_steps := by
          intro hc
          have : a.stats.steps + 1 > m := hc
          omega
        simp only [finishStep, h1, h2, h2', h3', if_false]; rfl

end
end DP5

namespace Radau

/-- The same state with another step limit and another end, another choice of `dense`. -/
def cut (m : Nat) (tf : F) (v : Bool) (w : Vec n F) (s : St F n P) : St F n P :=
  { s with
    tfinal := tf
    opts := { s.opts with dense := v, max_steps := m }
    cache := { s.cache with cont0 := w } }

section
variable (m : Nat) (tf : F) (v : Bool) (w : Vec n F) (s : St F n P)

theorem cut_halveStep : halveStep (cut m tf v w s) = cut m tf v w (halveStep s) := by
  unfold halveStep; simp only [apply_ite (cut m tf v w)]; rfl

theorem cut_decFail : decFail (cut m tf v w s) = cut m tf v w (decFail s) := by
  unfold decFail; simp only [apply_ite (cut m tf v w), ← cut_halveStep]; rfl

theorem cut_setFacs : setFacs (cut m tf v w s) = cut m tf v w (setFacs s) := rfl

theorem cut_decomp_real : decomp_real (cut m tf v w s) = (decomp_real s).map fun r => (cut m tf v w r.1, r.2) := by
  simp only [decomp_real]
  rw [show (cut m tf v w s).cache.fac1 = s.cache.fac1 from rfl,
    show (cut m tf v w s).cache.dfdu = s.cache.dfdu from rfl, show (cut m tf v w s).cache.ip1 = s.cache.ip1 from rfl]
  cases Linalg.dec n (extM fun i j => s.cache.fac1 * eye i j - s.cache.dfdu i j) s.cache.ip1 <;> rfl

theorem cut_decomp_complex : decomp_complex (cut m tf v w s) = (decomp_complex s).map fun r => (cut m tf v w r.1, r.2) := by
  simp only [decomp_complex]
  rw [show (cut m tf v w s).cache.alphn = s.cache.alphn from rfl,
    show (cut m tf v w s).cache.betan = s.cache.betan from rfl,
    show (cut m tf v w s).cache.dfdu = s.cache.dfdu from rfl, show (cut m tf v w s).cache.ip2 = s.cache.ip2 from rfl]
  cases Linalg.decc n (extM fun i j => s.cache.alphn * eye i j - s.cache.dfdu i j)
    (extM fun i j => s.cache.betan * eye i j) s.cache.ip2 <;> rfl

theorem cut_perform :
    perform_decompositions (cut m tf v w s) = (perform_decompositions s).map fun r => (cut m tf v w r.1, r.2) := by
  have e : ∀ s : St F n P, perform_decompositions s = (decomp_real (setFacs s)).bind fun (s, ier) =>
    if ier = 0 then
      (decomp_complex s).bind fun (s, ier) =>
        if ier = 0 then
          .ok ({ s with stats := { s.stats with decompositions := s.stats.decompositions + 1 } }, true)
        else .ok (decFail s, false)
    else .ok (decFail s, false) := fun _ => rfl
  rw [e, e, cut_setFacs, cut_decomp_real]
  cases decomp_real (setFacs s) with
  | panic => rfl
  | timeout => rfl
  | ok r =>
    obtain ⟨a, ier⟩ := r
    simp only [Res.map_ok, Res.bind_ok]
    split
    · rw [cut_decomp_complex]
      cases decomp_complex a with
      | panic => rfl
      | timeout => rfl
      | ok r =>
        obtain ⟨b, ier⟩ := r
        simp only [Res.map_ok, Res.bind_ok]
        split
        · rfl
        · rw [cut_decFail]; rfl
    · rw [cut_decFail]; rfl

theorem cut_decLoop (fuel : Nat) : decLoop fuel (cut m tf v w s) = (decLoop fuel s).map fun r => (cut m tf v w r.1, r.2) := by
  induction fuel generalizing s with
  | zero => rfl
  | succ f ih =>
    simp only [decLoop]
    rw [cut_perform]
    cases perform_decompositions s with
    | panic => rfl
    | timeout => rfl
    | ok r =>
      obtain ⟨a, b⟩ := r
      simp only [Res.map_ok, Res.bind_ok]
      split
      · rfl
      · split
        · rename_i h
          have h' : a.sol.retcode ≠ .Continue := h
          rw [if_pos h']; rfl
        · rename_i h
          have h' : ¬ a.sol.retcode ≠ .Continue := h
          rw [if_neg h', ih]

theorem cut_decPhase (fuel : Nat) : decPhase fuel (cut m tf v w s) = (decPhase fuel s).map fun r => (cut m tf v w r.1, r.2) := by
  simp only [decPhase]
  rw [show (cut m tf v w s).cache.decompose = s.cache.decompose from rfl]
  split
  · exact cut_decLoop m tf v w s fuel
  · rfl

theorem cut_newtonInit : newtonInit (cut m tf v w s) = cut m tf v w (newtonInit s) := by
  have : prepare_newton (cut m tf v w s) = cut m tf v w (prepare_newton s) := by
    unfold prepare_newton; simp only [apply_ite (cut m tf v w)]; rfl
  unfold newtonInit
  rw [this]; rfl

theorem cut_slowStep (d : F) : slowStep (cut m tf v w s) d = cut m tf v w (slowStep s d) := by
  unfold slowStep; simp only [apply_ite (cut m tf v w)]; rfl

theorem cut_newtonCheck (a b : F) :
    newtonCheck (cut m tf v w s) a b = (cut m tf v w (newtonCheck s a b).1, (newtonCheck s a b).2) := by
  have h1 : ∀ (c : Prop) [Decidable c] (x y : St F n P × Bool),
      (cut m tf v w (if c then x else y).1, (if c then x else y).2) =
        if c then (cut m tf v w x.1, x.2) else (cut m tf v w y.1, y.2) := by
    intro c _ x y; split <;> rfl
  simp only [newtonCheck, h1, ← cut_slowStep, ← cut_halveStep]
  rfl

theorem cut_newtonLoop (fuel : Nat) (d : F) :
    ∃ w', newtonLoop fuel (cut m tf v w s) d = (newtonLoop fuel s d).map fun r => (cut m tf v w' r.1, r.2) := by
  induction fuel generalizing s d w with
  | zero => exact ⟨w, rfl⟩
  | succ f ih =>
    simp only [newtonLoop]
    by_cases h : s.cache.newt ≥ s.opts.max_newt_iter
    · have h' : (cut m tf v w s).cache.newt ≥ (cut m tf v w s).opts.max_newt_iter := h
      rw [if_pos h, if_pos h', cut_halveStep]; exact ⟨w, rfl⟩
    · have h' : ¬ (cut m tf v w s).cache.newt ≥ (cut m tf v w s).opts.max_newt_iter := h
      rw [if_neg h, if_neg h']
      have e : newtonSolve (newtonRhs (cut m tf v w s)) =
        cut m tf v (newtonRhs s).cache.cont0 (newtonSolve (newtonRhs s)) := rfl
      rw [e]
      generalize (newtonRhs s).cache.cont0 = w
      generalize newtonSolve (newtonRhs s) = a
      have e2 : newtonNorm (cut m tf v w a) = newtonNorm a := rfl
      rw [e2, cut_newtonCheck]
      generalize newtonNorm a = nn
      generalize newtonCheck a nn d = r
      obtain ⟨r1, r2⟩ := r
      cases r2 with
      | true => exact ⟨w, rfl⟩
      | false =>
        simp only [Bool.false_eq_true, if_false]
        have e3 : newtonUpdate (cut m tf v w r1) = cut m tf v w (newtonUpdate r1) := rfl
        rw [e3]
        generalize newtonUpdate r1 = q
        by_cases h2 : Fl.le (q.cache.faccon * nn) q.opts.fnewt = true
        · have h3 : Fl.le ((cut m tf v w q).cache.faccon * nn) (cut m tf v w q).opts.fnewt = true := h2
          rw [if_pos h2, if_pos h3]; exact ⟨w, rfl⟩
        · have h3 : ¬ Fl.le ((cut m tf v w q).cache.faccon * nn) (cut m tf v w q).opts.fnewt = true := h2
          rw [if_neg h2, if_neg h3]
          exact ih w q _

theorem cut_newton : ∃ w', newton (cut m tf v w s) = (newton s).map fun r => (cut m tf v w' r.1, r.2) := by
  rw [newton_eq, newton_eq, cut_newtonInit]
  exact cut_newtonLoop m tf v w _ _ _

theorem cut_error : ∃ w', error_estimate (cut m tf v w s) = cut m tf v w' (error_estimate s) := by
  unfold error_estimate
  have e1 : errFirst (cut m tf v w s) = cut m tf v (errFirst s).cache.cont0 (errFirst s) := rfl
  rw [e1]
  generalize errFirst s = a
  simp only
  by_cases h1 : Fl.lt a.cache.err 1.0 = true
  · rw [if_pos h1, if_pos (show Fl.lt (cut m tf v a.cache.cont0 a).cache.err 1.0 = true from h1)]
    exact ⟨_, rfl⟩
  · rw [if_neg h1, if_neg (show ¬ Fl.lt (cut m tf v a.cache.cont0 a).cache.err 1.0 = true from h1)]
    by_cases h2 : (a.cache.first || a.cache.reject) = true
    · rw [if_pos h2, if_pos (show ((cut m tf v a.cache.cont0 a).cache.first ||
        (cut m tf v a.cache.cont0 a).cache.reject) = true from h2)]
      exact ⟨(errSecond a).cache.cont0, rfl⟩
    · rw [if_neg h2, if_neg (show ¬ ((cut m tf v a.cache.cont0 a).cache.first ||
        (cut m tf v a.cache.cont0 a).cache.reject) = true from h2)]
      exact ⟨_, rfl⟩

theorem cut_decided : ∃ w', decided (cut m tf v w s) = cut m tf v w' (decided s) := by
  obtain ⟨w', h⟩ := cut_error m tf v w s
  refine ⟨w', ?_⟩
  unfold decided
  rw [h]; rfl

theorem cut_finishNext : finishNext (cut m tf v w s) = cut m tf v w (finishNext s) := by
  unfold finishNext; simp only [apply_ite (cut m tf v w)]; rfl

theorem cut_rejectStep (q : F) : rejectStep (cut m tf v w s) q = cut m tf v w (rejectStep s q) := by
  simp only [rejectStep]
  by_cases h : s.cache.first = true
  · have h' : (cut m tf v w s).cache.first = true := h
    rw [if_pos h, if_pos h', apply_ite (cut m tf v w)]; rfl
  · have h' : ¬ (cut m tf v w s).cache.first = true := h
    rw [if_neg h, if_neg h', apply_ite (cut m tf v w)]; rfl


theorem cut_acceptState : ∃ w', acceptState (cut m tf v w s) = cut m tf v w' (acceptState s) := by
  simp only [acceptState]
  by_cases h : s.opts.modern_pred = true
  · have h' : (cut m tf v w s).opts.modern_pred = true := h
    rw [if_pos h, if_pos h']; exact ⟨_, rfl⟩
  · have h' : ¬ (cut m tf v w s).opts.modern_pred = true := h
    rw [if_neg h, if_neg h']; exact ⟨_, rfl⟩

/-- Between `a` and `b` no time `z` is at the end of the integration `b` unless it is for `a`. -/
def Later (a b d : F) : Prop := ∀ z, Fl.ge ((z - a) * d) 0.0 = false → Fl.ge ((z - b) * d) 0.0 = false

theorem nextStep_end (d : F) :
    (nextStep s d).cache.reject = false ∧
    (Fl.ge ((s.t + capStep s d / s.opts.quot1 - s.tfinal) * s.tdir) 0.0 = true →
      (nextStep s d).dt = s.tfinal - s.t) ∧ (nextStep s d).t = s.t := by
  have hf : ∀ a : St F n P, (finishNext a).dt = a.dt ∧ (finishNext a).t = a.t ∧
      (finishNext a).cache.reject = a.cache.reject := by
    intro a
    unfold finishNext
    simp only
    split
    · exact ⟨rfl, rfl, rfl⟩
    · exact ⟨rfl, rfl, rfl⟩
  unfold nextStep
  simp only
  by_cases h : Fl.ge ((s.t + capStep s d / s.opts.quot1 - s.tfinal) * s.tdir) 0.0 = true
  · rw [if_pos h]
    exact ⟨(hf _).2.2, fun _ => (hf _).1, (hf _).2.1⟩
  · rw [if_neg h]
    refine ⟨?_, fun h' => absurd h' h, ?_⟩
    · split
      · rfl
      · exact (hf _).2.2
    · split
      · rfl
      · exact (hf _).2.1

theorem cut_nextStep (d : F) (h : tf = s.tfinal ∨ Later s.tfinal tf s.tdir ∧
      (nextStep s d).dt ≠ s.tfinal - (nextStep s d).t) :
    nextStep (cut m tf v w s) d = cut m tf v w (nextStep s d) := by
  have key : Fl.ge ((s.t + capStep s d / s.opts.quot1 - tf) * s.tdir) 0.0 =
      Fl.ge ((s.t + capStep s d / s.opts.quot1 - s.tfinal) * s.tdir) 0.0 ∧
      (tf = s.tfinal ∨ Fl.ge ((s.t + capStep s d / s.opts.quot1 - s.tfinal) * s.tdir) 0.0 = false) := by
    rcases h with h | ⟨h1, h2⟩
    · exact ⟨by rw [h], .inl h⟩
    · obtain ⟨-, g1, g2⟩ := nextStep_end s d
      have : Fl.ge ((s.t + capStep s d / s.opts.quot1 - s.tfinal) * s.tdir) 0.0 = false := by
        rw [Bool.eq_false_iff]
        intro hc
        exact h2 (by rw [g1 hc, g2])
      exact ⟨by rw [this]; exact h1 _ this, .inr this⟩
  unfold nextStep
  simp only
  have e : capStep (cut m tf v w s) d = capStep s d := rfl
  rw [e]
  generalize capStep s d = x at key
  by_cases h1 : Fl.ge ((s.t + x / s.opts.quot1 - s.tfinal) * s.tdir) 0.0 = true
  · have h2 : tf = s.tfinal := key.2.resolve_right (by rw [h1]; simp)
    rw [if_pos h1, if_pos (show Fl.ge (((cut m tf v w s).t + x / (cut m tf v w s).opts.quot1 -
      (cut m tf v w s).tfinal) * (cut m tf v w s).tdir) 0.0 = true from key.1.trans h1), ← cut_finishNext]
    subst h2
    rfl
  · rw [if_neg h1, if_neg (show ¬ Fl.ge (((cut m tf v w s).t + x / (cut m tf v w s).opts.quot1 -
      (cut m tf v w s).tfinal) * (cut m tf v w s).tdir) 0.0 = true from by rw [← key.1] at h1; exact h1)]
    rw [apply_ite (cut m tf v w), ← cut_finishNext]
    rfl

theorem cut_control (h : tf = s.tfinal ∨ Later s.tfinal tf s.tdir ∧
      ((control s).cache.reject = false → (control s).dt ≠ s.tfinal - (control s).t)) :
    ∃ w', control (cut m tf v w s) = cut m tf v w' (control s) := by
  obtain ⟨w1, e1⟩ := cut_decided m tf v w s
  have f : (decided s).tfinal = s.tfinal ∧ (decided s).tdir = s.tdir := by
    unfold decided error_estimate
    simp only
    repeat' split
    all_goals exact ⟨rfl, rfl⟩
  rw [control_eq] at h ⊢
  rw [control_eq, e1]
  generalize decided s = a at f h
  have eq : stepQuot (cut m tf v w1 a) = stepQuot a := rfl
  rw [eq]
  rw [← f.1, ← f.2] at h
  by_cases hl : Fl.lt a.cache.err 1.0 = true
  · rw [if_pos hl] at h ⊢
    rw [if_pos (show Fl.lt (cut m tf v w1 a).cache.err 1.0 = true from hl)]
    generalize stepQuot a = q at h
    have c1 : countAccept (cut m tf v w1 a) = cut m tf v w1 (countAccept a) := rfl
    have c2 : stepQuotPred (cut m tf v w1 (countAccept a)) q = stepQuotPred (countAccept a) q := rfl
    obtain ⟨w2, c3⟩ := cut_acceptState m tf v w1 (countAccept a)
    have f2 : (acceptState (countAccept a)).tfinal = a.tfinal ∧ (acceptState (countAccept a)).tdir = a.tdir := by
      unfold acceptState
      simp only
      split <;> exact ⟨rfl, rfl⟩
    refine ⟨w2, ?_⟩
    simp only [acceptStep, c1, c2, c3] at h ⊢
    generalize acceptState (countAccept a) = x at h f2
    rw [← f2.1, ← f2.2] at h
    rw [show (cut m tf v w1 (countAccept a)).dt = (countAccept a).dt from rfl]
    generalize (countAccept a).dt / stepQuotPred (countAccept a) q = y at h
    by_cases hx : x.cache.last = true
    · rw [if_pos hx, if_pos (show (cut m tf v w2 x).cache.last = true from hx)]
      rfl
    · rw [if_neg hx, if_neg (show ¬ (cut m tf v w2 x).cache.last = true from hx)]
      rw [if_neg hx] at h
      rw [show newDeriv (cut m tf v w2 x) = cut m tf v w2 (newDeriv x) from rfl]
      apply cut_nextStep
      rcases h with h | ⟨g1, g2⟩
      · exact .inl h
      · exact .inr ⟨g1, g2 (nextStep_end _ _).1⟩
  · rw [if_neg hl, if_neg (show ¬ Fl.lt (cut m tf v w1 a).cache.err 1.0 = true from hl)]
    exact ⟨w1, cut_rejectStep ..⟩

theorem StepFrame.control : StepFrame s (control s) := by
  rw [control_eq]
  split
  · exact (Frame.decided s).stepFrame.trans (StepFrame.accept _ _)
  · exact (Frame.decided s).stepFrame.trans (Frame.rejectStep _ _).stepFrame

/-- What no call of `step` changes, in any state. -/
theorem step_frame {fuel : Nat} {s s' : St F n P} (h : step fuel s = .ok s') : StepFrame s s' := by
  have tick' : ∀ {fuel} {a b : St F n P}, decPhase fuel a = .ok (b, true) → StepFrame a (tick b) :=
    fun h => ((Frame.decPhase h).trans (Frame.tick _)).stepFrame
  have ha : ∀ {k} {a b : St F n P}, Atts k a b → StepFrame a b := by
    intro k a b h
    induction h with
    | zero s => exact (Frame.refl s).stepFrame
    | succ h1 _ ih =>
      refine StepFrame.trans ?_ ih
      cases h1 with
      | diverged h1 _ _ h2 => exact (tick' h1).trans (Frame.newton h2).stepFrame
      | again h1 _ _ h2 _ => exact ((tick' h1).trans (Frame.newton h2).stepFrame).trans (StepFrame.control _)
  obtain ⟨k, s1, -, h1, h2⟩ := step_ok h
  refine ((Frame.clampLast s).stepFrame.trans (ha h1)).trans ?_
  cases h2 with
  | singular h1 => exact (Frame.decPhase h1).stepFrame
  | maxIters h1 _ => exact (tick' h1).trans (Frame.setCode _ _).stepFrame
  | small h1 _ _ => exact (tick' h1).trans (Frame.setCode _ _).stepFrame
  | done h1 _ _ h2 _ => exact ((tick' h1).trans (Frame.newton h2).stepFrame).trans (StepFrame.control _)

/-- The loop: either the limit `max_steps` ends it, or the result is the same. -/
theorem cut_stepLoop (fuel : Nat) (hm : s.opts.max_steps ≤ m) (h : tf = s.tfinal ∨ Later s.tfinal tf s.tdir ∧
      ∀ r, stepLoop fuel s = .ok r → r.dt ≠ s.tfinal - r.t) :
    (∃ r, stepLoop fuel s = .ok r ∧ s.opts.max_steps ≠ m ∧ r.sol.retcode = .MaxIters) ∨
    (∃ w', stepLoop fuel (cut m tf v w s) = (stepLoop fuel s).map (cut m tf v w')) := by
  induction fuel generalizing s w with
  | zero => exact .inr ⟨w, rfl⟩
  | succ f ih =>
    simp only [stepLoop] at h ⊢
    rw [cut_decPhase]
    cases hd : decPhase (f + 1) s with
    | panic => exact .inr ⟨w, rfl⟩
    | timeout => exact .inr ⟨w, rfl⟩
    | ok r =>
      obtain ⟨a, b⟩ := r
      have f1 := Frame.decPhase hd
      rw [hd] at h
      rw [← f1.opts] at hm ⊢
      rw [← f1.tfinal, ← f1.tdir] at h
      cases b with
      | false => exact .inr ⟨w, rfl⟩
      | true =>
        simp only [Res.map_ok, Res.bind_ok, Bool.not_true, Bool.false_eq_true, if_false] at h ⊢
        by_cases h1 : a.stats.steps + 1 ≥ a.opts.max_steps
        · rw [if_pos h1]
          by_cases hmm : a.opts.max_steps = m
          · right
            rw [if_pos (show (cut m tf v w a).stats.steps + 1 ≥ (cut m tf v w a).opts.max_steps from hmm ▸ h1)]
            exact ⟨w, rfl⟩
          · exact .inl ⟨_, rfl, hmm, rfl⟩
        · rw [if_neg h1] at h ⊢
          rw [if_neg (show ¬ (cut m tf v w a).stats.steps + 1 ≥ (cut m tf v w a).opts.max_steps from by
            intro hc
            have : a.stats.steps + 1 ≥ m := hc
            omega)]
          by_cases h2 : Fl.le (0.1 * Fl.abs a.dt) (Fl.abs a.t * Fl.eps) = true
          · rw [if_pos h2, if_pos (show Fl.le (0.1 * Fl.abs (cut m tf v w a).dt)
              (Fl.abs (cut m tf v w a).t * Fl.eps) = true from h2)]
            exact .inr ⟨w, rfl⟩
          · rw [if_neg h2] at h ⊢
            rw [if_neg (show ¬ Fl.le (0.1 * Fl.abs (cut m tf v w a).dt)
              (Fl.abs (cut m tf v w a).t * Fl.eps) = true from h2)]
            have e : { cut m tf v w a with
                stats := { (cut m tf v w a).stats with steps := (cut m tf v w a).stats.steps + 1 } } =
              cut m tf v w { a with stats := { a.stats with steps := a.stats.steps + 1 } } := rfl
            rw [e]
            obtain ⟨w1, e1⟩ := cut_newton m tf v w { a with stats := { a.stats with steps := a.stats.steps + 1 } }
            rw [e1]
            cases hn : newton { a with stats := { a.stats with steps := a.stats.steps + 1 } } with
            | panic => exact .inr ⟨w, rfl⟩
            | timeout => exact .inr ⟨w, rfl⟩
            | ok r =>
              obtain ⟨b, conv⟩ := r
              have f2 := Frame.newton hn
              have f3 : b.opts = a.opts ∧ b.tfinal = a.tfinal ∧ b.tdir = a.tdir := ⟨f2.opts, f2.tfinal, f2.tdir⟩
              rw [hn] at h
              rw [← f3.1] at hm ⊢
              rw [← f3.2.1, ← f3.2.2] at h
              simp only [Res.map_ok, Res.bind_ok] at h ⊢
              cases conv with
              | false => exact ih w1 b hm h
              | true =>
                simp only [Bool.not_true, Bool.false_eq_true, if_false] at h ⊢
                have f4 := StepFrame.control b
                have hc : tf = b.tfinal ∨ Later b.tfinal tf b.tdir ∧
                    ((control b).cache.reject = false → (control b).dt ≠ b.tfinal - (control b).t) := by
                  rcases h with h | ⟨g1, g2⟩
                  · exact .inl h
                  · refine .inr ⟨g1, fun hr => g2 _ ?_⟩
                    rw [hr]; rfl
                obtain ⟨w2, e2⟩ := cut_control m tf v w1 b hc
                rw [e2]
                by_cases h3 : (!(control b).cache.reject) = true
                · rw [if_pos h3, if_pos (show (!(cut m tf v w2 (control b)).cache.reject) = true from h3)]
                  exact .inr ⟨w2, rfl⟩
                · rw [if_neg h3] at h ⊢
                  rw [if_neg (show ¬ (!(cut m tf v w2 (control b)).cache.reject) = true from h3)]
                  rw [← f4.opts] at hm ⊢
                  rw [← f4.tfinal, ← f4.tdir] at h
                  exact ih w2 _ hm h

/-- The same for a call of `step`. -/
theorem cut_step (fuel : Nat) (hm : s.opts.max_steps ≤ m) (h : tf = s.tfinal ∨ Later s.tfinal tf s.tdir ∧
      Fl.ge (s.t + s.dt * 1.0001 - s.tfinal * s.tdir) 0.0 = false ∧
      Fl.ge (s.t + s.dt * 1.0001 - tf * s.tdir) 0.0 = false ∧
      ∀ r, step fuel s = .ok r → r.dt ≠ s.tfinal - r.t) :
    (∃ r, step fuel s = .ok r ∧ s.opts.max_steps ≠ m ∧ r.sol.retcode = .MaxIters) ∨
    (∃ w', step fuel (cut m tf v w s) = (step fuel s).map (cut m tf v w')) := by
  have e : clampLast (cut m tf v w s) = cut m tf v w (clampLast s) := by
    rcases h with h | ⟨-, h1, h2, -⟩
    · subst h
      unfold clampLast; simp only [apply_ite (cut m s.tfinal v w)]; rfl
    · have h2' : ¬ Fl.ge ((cut m tf v w s).t + (cut m tf v w s).dt * 1.0001 -
        (cut m tf v w s).tfinal * (cut m tf v w s).tdir) 0.0 = true := by
        rw [Bool.not_eq_true]; exact h2
      unfold clampLast
      rw [if_neg h2', if_neg (by rw [h1]; simp)]
  have f := Frame.clampLast s
  simp only [step] at h ⊢
  rw [e, ← f.opts]
  refine cut_stepLoop m tf v w (clampLast s) fuel (by rw [f.opts]; exact hm) ?_
  rw [f.tfinal, f.tdir]
  rcases h with h | ⟨h1, -, -, h4⟩
  · exact .inl h
  · exact .inr ⟨h1, h4⟩

end
end Radau
end Cyphus
