import Verif.Proofs.RadauCount
import Verif.Proofs.Sample
import Verif.Props.Stats
/-!
# Options that are ignored (C04) and stiffness detection (C48)

All theorems of this file hold for every arithmetic.
-/

namespace Cyphus
set_option linter.unusedSectionVars false
set_option autoImplicit false
variable {F : Type} {n : Nat} {P : Type}

/-- Apply a function to a normal result. -/
def Res.map {α β : Type} (f : α → β) (r : Res α) : Res β := r.bind fun a => .ok (f a)

@[simp] theorem Res.map_ok {α β : Type} (f : α → β) (a : α) : (Res.ok a).map f = .ok (f a) := rfl
@[simp] theorem Res.map_panic {α β : Type} (f : α → β) : (Res.panic : Res α).map f = .panic := rfl
@[simp] theorem Res.map_timeout {α β : Type} (f : α → β) : (Res.timeout : Res α).map f = .timeout := rfl

/-- Everything a user can read off an integrator, except the options, the user's Jacobians and the private
cache. -/
structure View (F : Type) (n : Nat) (P : Type) where
  dudt : Rhs F n P
  params : P
  u : Vec n F
  t : F
  dt : F
  uprev : Vec n F
  tprev : F
  dtprev : F
  tdir : F
  tfinal : F
  stats : Stats
  sol : Solution F n
  trace : List (Call F n)

def Integ.view {C : Type} (s : Integ F n P C) : View F n P :=
  ⟨s.dudt, s.params, s.u, s.t, s.dt, s.uprev, s.tprev, s.dtprev, s.tdir, s.tfinal, s.stats, s.sol, s.trace⟩

/-- Two integrators behave alike: any sequence of calls of `step()` on one of them which returns, returns
the same values on the other one and leaves both with the same public data, and `integrate()` and the loop
over the integrator do the same on both. -/
structure BehaveAlike (alg : Algorithm F n P) (a b : Integ F n P alg.Cache) : Prop where
  steps : ∀ k s, Steps alg none k a s → ∃ s', Steps alg none k b s' ∧ s'.view = s.view
  returns : ∀ k s o s1, Steps alg none k a s → StepReturns alg none s o s1 →
    ∃ s' s1', Steps alg none k b s' ∧ StepReturns alg none s' o s1' ∧ s1'.view = s1.view
  panics : ∀ k s fuel, Steps alg none k a s → Integ.step alg none fuel s = .panic →
    ∃ s', Steps alg none k b s' ∧ Integ.step alg none fuel s' = .panic
  integrate : ∀ s, IntegrateReturns alg none a s → ∃ s', IntegrateReturns alg none b s' ∧ s'.view = s.view

/-- A relation preserved by `step` under which the public data agree. -/
theorem BehaveAlike.of_sim {alg : Algorithm F n P} (hm : FuelMono alg)
    (R : Integ F n P alg.Cache → Integ F n P alg.Cache → Prop)
    (hv : ∀ a b, R a b → b.view = a.view)
    (hs : ∀ fuel a b a', R a b → alg.step fuel a = .ok a' → ∃ b', alg.step fuel b = .ok b' ∧ R a' b')
    (hp : ∀ fuel a b, R a b → alg.step fuel a = .panic → alg.step fuel b = .panic)
    {a b : Integ F n P alg.Cache} (h : R a b) : BehaveAlike alg a b := by
  have hst : ∀ {a b}, R a b → b.stats = a.stats ∧ b.sol = a.sol := fun {a b} h =>
    ⟨congrArg View.stats (hv _ _ h), congrArg View.sol (hv _ _ h)⟩
  have one : ∀ {a b o a'}, R a b → StepReturns alg none a o a' →
      ∃ b', StepReturns alg none b o b' ∧ R a' b' := by
    intro a b o a' h h1
    obtain ⟨⟨fuel, h1⟩, ho⟩ := stepReturns_none_iff.1 h1
    obtain ⟨b', h2, h3⟩ := hs _ _ _ _ h h1
    exact ⟨b', stepReturns_none_iff.2 ⟨⟨fuel, h2⟩, by rw [(hst h3).1, (hst h3).2]; exact ho⟩, h3⟩
  have key : ∀ {k s}, Steps alg none k a s → ∃ s', Steps alg none k b s' ∧ R s s' := by
    intro k s h1
    exact Steps.induct (I := fun k s => ∃ s', Steps alg none k b s' ∧ R s s') ⟨b, .zero _, h⟩
      (fun ⟨s', g1, g2⟩ h2 => by
        obtain ⟨b', h3, h4⟩ := one g2 h2
        exact ⟨b', .succ g1 h3, h4⟩) h1
  have keyS : ∀ {k s}, SomeSteps alg none k a s → ∃ s', SomeSteps alg none k b s' ∧ R s s' := by
    intro k s h1
    exact SomeSteps.induct (I := fun k s => ∃ s', SomeSteps alg none k b s' ∧ R s s') ⟨b, .zero _, h⟩
      (fun ⟨s', g1, g2⟩ h2 => by
        obtain ⟨b', h3, h4⟩ := one g2 h2
        exact ⟨b', .succ g1 h3, h4⟩) h1
  refine ⟨?_, ?_, ?_, ?_⟩
  · intro k s h1
    obtain ⟨s', h2, h3⟩ := key h1
    exact ⟨s', h2, hv _ _ h3⟩
  · intro k s o s1 h1 h2
    obtain ⟨s', h3, h4⟩ := key h1
    obtain ⟨b', h5, h6⟩ := one h4 h2
    exact ⟨s', b', h3, h5, hv _ _ h6⟩
  · intro k s fuel h1 h2
    obtain ⟨s', h3, h4⟩ := key h1
    refine ⟨s', h3, ?_⟩
    have : alg.step fuel s = .panic := by
      simp only [Integ.step] at h2
      cases he : alg.step fuel s with
      | ok x => rw [he] at h2; simp at h2
      | panic => rfl
      | timeout => rw [he] at h2; simp at h2
    simp only [Integ.step, hp _ _ _ h4 this, Res.bind_panic]
  · intro s h1
    obtain ⟨k, s1, h2, h3⟩ := (integrate_iff hm).1 h1
    obtain ⟨s', h4, h5⟩ := keyS h2
    obtain ⟨b', h6, h7⟩ := one h5 h3
    exact ⟨b', (integrate_iff hm).2 ⟨k, s', h4, h6⟩, hv _ _ h7⟩

/-- The setters that have no effect on `DormandPrince5`. -/
def IgnoredDP5 : Setter F n P → Prop
  | .dtstart _ | .hess _ | .modern_pred _ | .quot1 _ | .quot2 _ | .fnewt _ | .use_ext_col _
  | .max_newt_iter _ | .dfdu _ | .dfdt _ => True
  | _ => False

/-- The setters that have no effect on `Radau5`. -/
def IgnoredRadau : Setter F n P → Prop
  | .dtstart _ | .hess _ | .max_stiff _ | .beta _ | .dfdt _ => True
  | _ => False

section
variable [Add F] [Sub F] [Mul F] [Div F] [Neg F] [OfScientific F] [Fl F]

/-! ### DormandPrince5 -/

namespace DP5

/-- Forget what has no influence: the options, the Jacobians and the stiffness counters. -/
def norm (s : St F n P) : St F n P :=
  { s with
    dfdt := none
    dfdu := none
    opts := { s.opts with dtstart := 0.0, hess := false, modern_pred := false, quot1 := 0.0, quot2 := 0.0,
                          fnewt := 0.0, use_ext_col := false, max_newt_iter := 0, theta := 0.0,
                          max_stiff := min s.opts.max_stiff 1 }
    cache := { s.cache with n_stiff := 0, n_nonstiff := 0, dtlamb := 0.0 } }

theorem norm_clampLast (s : St F n P) : norm (clampLast s) = clampLast (norm s) := by
  have h : (norm s).t = s.t ∧ (norm s).dt = s.dt ∧ (norm s).tfinal = s.tfinal ∧ (norm s).tdir = s.tdir :=
    ⟨rfl, rfl, rfl, rfl⟩
  simp only [clampLast, h]
  split <;> rfl

theorem norm_compute_stages (s : St F n P) : norm (compute_stages s) = compute_stages (norm s) := rfl
theorem norm_errOf (s : St F n P) : errOf (norm s) = errOf s := rfl

theorem norm_checkDtMin (s : St F n P) : norm (checkDtMin s) = checkDtMin (norm s) := by
  have h : (norm s).t = s.t ∧ (norm s).dt = s.dt := ⟨rfl, rfl⟩
  simp only [checkDtMin, h]
  split <;> rfl

theorem norm_retry (s : St F n P) : norm (retry s) = retry (norm s) := by
  rw [retry, norm_checkDtMin]; rfl

theorem norm_stiffness (s : St F n P) : norm (stiffness s) = norm s := by
  simp only [stiffness]
  repeat' split
  all_goals rfl

theorem norm_acceptStep (e d : F) (s : St F n P) :
    norm (acceptStep e d s) = norm (acceptStep e d (norm s)) := by
  have key : ∀ a b : St F n P, norm a = norm b →
      norm (let s := if a.opts.dense then prepare_dense a else a
        let s := { s with cache := { s.cache with du := s.cache.dunew }, uprev := s.u, u := s.cache.unew,
                          tprev := s.t, t := s.t + s.dt }
        let dtnew := if Fl.gt (Fl.abs d) s.opts.dtmax then s.tdir * s.opts.dtmax else d
        let dtnew := if s.cache.reject then s.tdir * Fl.min (Fl.abs dtnew) (Fl.abs s.dt) else dtnew
        { s with cache := { s.cache with reject := false }, dtprev := s.dt, dt := dtnew }) =
      norm (let s := if b.opts.dense then prepare_dense b else b
        let s := { s with cache := { s.cache with du := s.cache.dunew }, uprev := s.u, u := s.cache.unew,
                          tprev := s.t, t := s.t + s.dt }
        let dtnew := if Fl.gt (Fl.abs d) s.opts.dtmax then s.tdir * s.opts.dtmax else d
        let dtnew := if s.cache.reject then s.tdir * Fl.min (Fl.abs dtnew) (Fl.abs s.dt) else dtnew
        { s with cache := { s.cache with reject := false }, dtprev := s.dt, dt := dtnew }) := by
    intro a b h
    obtain ⟨a1, a2, a3, a4, a5, a6, a7, a8, a9, a10, a11, a12, a13, a14, a15, a16, a17⟩ := a
    obtain ⟨b1, b2, b3, b4, b5, b6, b7, b8, b9, b10, b11, b12, b13, b14, b15, b16, b17⟩ := b
    obtain ⟨p1, p2, p3, p4, p5, p6, p7, p8, p9, p10, p11, p12, p13, p14, p15, p16, p17, p18, p19⟩ := a13
    obtain ⟨q1, q2, q3, q4, q5, q6, q7, q8, q9, q10, q11, q12, q13, q14, q15, q16, q17, q18, q19⟩ := b13
    cases a16
    cases b16
    simp only [norm, Integ.mk.injEq, Opts.mk.injEq, Cache.mk.injEq, true_and] at h
    obtain ⟨rfl, rfl, rfl, rfl, rfl, rfl, rfl, rfl, rfl, rfl, h, rfl, rfl, h', rfl⟩ := h
    obtain ⟨rfl, rfl, rfl, rfl, rfl, h8, rfl, rfl, rfl, rfl, -⟩ := h
    obtain ⟨rfl, rfl, rfl, rfl, rfl, rfl, rfl, rfl, rfl, rfl, rfl, rfl, rfl, rfl, rfl, rfl, rfl, rfl⟩ := h'
    simp only
    split <;> (simp only [norm, prepare_dense, h8]; try rfl)
  simp only [acceptStep]
  apply key
  have hn : ∀ (a : Stats) (c : F), norm ({ norm s with cache := { (norm s).cache with facold := c }, stats := a }) =
      norm { s with cache := { s.cache with facold := c }, stats := a } := by
    intro a c
    simp only [norm]
    congr 2
    omega
  split <;> split
  · rw [norm_stiffness, norm_stiffness]; exact (hn _ _).symm
  · rw [norm_stiffness]; exact (hn _ _).symm
  · rw [norm_stiffness]; exact (hn _ _).symm
  · exact (hn _ _).symm

theorem norm_accepted (s : St F n P) : norm (accepted s) = norm (accepted (norm s)) :=
  norm_acceptStep _ _ _

theorem norm_finishStep (s : St F n P) : norm (finishStep s) = finishStep (norm s) := by
  simp only [finishStep]
  have h : (norm s).stats = s.stats ∧ (norm s).opts.max_steps = s.opts.max_steps ∧
    (norm s).cache.last = s.cache.last ∧ (norm s).sol = s.sol ∧ (norm s).t = s.t ∧ (norm s).u = s.u :=
    ⟨rfl, rfl, rfl, rfl, rfl, rfl⟩
  by_cases h1 : s.stats.steps + 1 > s.opts.max_steps
  · by_cases h2 : s.cache.last
    · simp [h, h1, h2]; rfl
    · simp [h, h1, h2]; rfl
  · by_cases h2 : s.cache.last
    · simp [h, h1, h2]; rfl
    · simp [h, h1, h2]; rfl

theorem norm_norm (s : St F n P) : norm (norm s) = norm s := by
  simp only [norm]
  congr 2
  omega

theorem norm_stiff (s : St F n P) : (norm s).opts.max_stiff = 0 ↔ s.opts.max_stiff = 0 := by
  show min s.opts.max_stiff 1 = 0 ↔ _
  omega

theorem norm_attemptLoop (fuel : Nat) (s : St F n P) :
    (attemptLoop fuel s).map norm = (attemptLoop fuel (norm s)).map norm := by
  induction fuel generalizing s with
  | zero => rfl
  | succ f ih =>
    rw [attemptLoop_succ, attemptLoop_succ, norm_errOf]
    split
    · by_cases h : s.opts.max_stiff = 0
      · rw [if_pos h, if_pos ((norm_stiff s).2 h)]
      · rw [if_neg h, if_neg (fun h' => h ((norm_stiff s).1 h')), Res.map_ok, Res.map_ok, norm_accepted]
    · rw [ih, norm_retry]

theorem norm_step (fuel : Nat) (s : St F n P) :
    (step fuel s).map norm = (step fuel (norm s)).map norm := by
  have h := norm_attemptLoop fuel (clampLast s)
  rw [norm_clampLast] at h
  simp only [step]
  cases h1 : attemptLoop fuel (clampLast s) with
  | ok a =>
    cases h2 : attemptLoop fuel (clampLast (norm s)) with
    | ok b =>
      rw [h1, h2] at h
      simp only [Res.map_ok, Res.ok.injEq] at h
      simp only [Res.bind_ok, Res.map_ok, norm_finishStep, h]
    | panic => rw [h1, h2] at h; simp at h
    | timeout => rw [h1, h2] at h; simp at h
  | panic =>
    cases h2 : attemptLoop fuel (clampLast (norm s)) with
    | ok b => rw [h1, h2] at h; simp at h
    | panic => rfl
    | timeout => rw [h1, h2] at h; simp at h
  | timeout =>
    cases h2 : attemptLoop fuel (clampLast (norm s)) with
    | ok b => rw [h1, h2] at h; simp at h
    | panic => rw [h1, h2] at h; simp at h
    | timeout => rfl

theorem alike [FlInf F] {a b : St F n P} (h : norm a = norm b) :
    BehaveAlike (alg : Algorithm F n P) a b := by
  have key : ∀ fuel (a b : St F n P), norm a = norm b → (step fuel a).map norm = (step fuel b).map norm := by
    intro fuel a b h
    rw [norm_step fuel a, norm_step fuel b, h]
  refine BehaveAlike.of_sim (alg := alg) DP5.fuelMono (fun a b => norm a = norm b) ?_ ?_ ?_ h
  · intro a b h
    exact (congrArg Integ.view h).symm
  · intro fuel a b a' h h1
    have := key fuel a b h
    rw [show step fuel a = .ok a' from h1] at this
    cases h2 : step fuel b with
    | ok b' =>
      rw [h2] at this
      simp only [Res.map_ok, Res.ok.injEq] at this
      exact ⟨b', h2, this⟩
    | panic => rw [h2] at this; simp at this
    | timeout => rw [h2] at this; simp at this
  · intro fuel a b h h1
    have := key fuel a b h
    rw [show step fuel a = .panic from h1] at this
    show step fuel b = .panic
    cases h2 : step fuel b with
    | ok b' => rw [h2] at this; simp at this
    | panic => rfl
    | timeout => rw [h2] at this; simp at this

end DP5

/-! ### Radau5 -/

namespace Radau

/-- New values for what has no influence. -/
structure Over (F : Type) (n : Nat) (P : Type) where
  dtstart : F
  hess : Bool
  max_stiff : Nat
  beta : F
  dfdt : Option (Rhs F n P)

def re (v : Over F n P) (s : St F n P) : St F n P :=
  { s with
    dfdt := v.dfdt
    opts := { s.opts with dtstart := v.dtstart, hess := v.hess, max_stiff := v.max_stiff, beta := v.beta } }

section
variable (v : Over F n P) (s : St F n P)

theorem re_halveStep : halveStep (re v s) = re v (halveStep s) := by
  unfold halveStep; simp only [apply_ite (re v)]; rfl

theorem re_decFail : decFail (re v s) = re v (decFail s) := by
  unfold decFail; simp only [apply_ite (re v), ← re_halveStep]; rfl

theorem re_setFacs : setFacs (re v s) = re v (setFacs s) := rfl

theorem re_decomp_real : decomp_real (re v s) = (decomp_real s).map fun r => (re v r.1, r.2) := by
  simp only [decomp_real]
  have : (re v s).cache = s.cache := rfl
  rw [this]
  cases Linalg.dec n (extM fun i j => s.cache.fac1 * eye i j - s.cache.dfdu i j) s.cache.ip1 <;> rfl

theorem re_decomp_complex : decomp_complex (re v s) = (decomp_complex s).map fun r => (re v r.1, r.2) := by
  simp only [decomp_complex]
  have : (re v s).cache = s.cache := rfl
  rw [this]
  cases Linalg.decc n (extM fun i j => s.cache.alphn * eye i j - s.cache.dfdu i j)
    (extM fun i j => s.cache.betan * eye i j) s.cache.ip2 <;> rfl

theorem re_perform :
    perform_decompositions (re v s) = (perform_decompositions s).map fun r => (re v r.1, r.2) := by
  have e : ∀ s : St F n P, perform_decompositions s = (decomp_real (setFacs s)).bind fun (s, ier) =>
    if ier = 0 then
      (decomp_complex s).bind fun (s, ier) =>
        if ier = 0 then
          .ok ({ s with stats := { s.stats with decompositions := s.stats.decompositions + 1 } }, true)
        else .ok (decFail s, false)
    else .ok (decFail s, false) := fun _ => rfl
  rw [e, e, re_setFacs, re_decomp_real]
  cases decomp_real (setFacs s) with
  | panic => rfl
  | timeout => rfl
  | ok r =>
    obtain ⟨a, ier⟩ := r
    simp only [Res.map_ok, Res.bind_ok]
    split
    · rw [re_decomp_complex]
      cases decomp_complex a with
      | panic => rfl
      | timeout => rfl
      | ok r =>
        obtain ⟨b, ier⟩ := r
        simp only [Res.map_ok, Res.bind_ok]
        split
        · rfl
        · rw [re_decFail]; rfl
    · rw [re_decFail]; rfl

theorem re_decLoop (fuel : Nat) : decLoop fuel (re v s) = (decLoop fuel s).map fun r => (re v r.1, r.2) := by
  induction fuel generalizing s with
  | zero => rfl
  | succ f ih =>
    simp only [decLoop]
    rw [re_perform]
    cases perform_decompositions s with
    | panic => rfl
    | timeout => rfl
    | ok r =>
      obtain ⟨a, b⟩ := r
      simp only [Res.map_ok, Res.bind_ok]
      split
      · rfl
      · split
        · rename_i h
          have h' : a.sol.retcode ≠ .Continue := h
          rw [if_pos h']; rfl
        · rename_i h
          have h' : ¬ a.sol.retcode ≠ .Continue := h
          rw [if_neg h', ih]

theorem re_decPhase (fuel : Nat) : decPhase fuel (re v s) = (decPhase fuel s).map fun r => (re v r.1, r.2) := by
  simp only [decPhase]
  have : (re v s).cache = s.cache := rfl
  rw [this]
  split
  · exact re_decLoop v s fuel
  · rfl

theorem re_newtonInit : newtonInit (re v s) = re v (newtonInit s) := by
  have : prepare_newton (re v s) = re v (prepare_newton s) := by
    unfold prepare_newton; simp only [apply_ite (re v)]; rfl
  unfold newtonInit
  rw [this]; rfl

theorem re_slowStep (d : F) : slowStep (re v s) d = re v (slowStep s d) := by
  unfold slowStep; simp only [apply_ite (re v)]; rfl

theorem re_newtonCheck (a b : F) :
    newtonCheck (re v s) a b = (re v (newtonCheck s a b).1, (newtonCheck s a b).2) := by
  have h1 : ∀ (c : Prop) [Decidable c] (x y : St F n P × Bool),
      (re v (if c then x else y).1, (if c then x else y).2) =
        if c then (re v x.1, x.2) else (re v y.1, y.2) := by
    intro c _ x y; split <;> rfl
  simp only [newtonCheck, h1, ← re_slowStep, ← re_halveStep]
  rfl

theorem re_newtonLoop (fuel : Nat) (d : F) :
    newtonLoop fuel (re v s) d = (newtonLoop fuel s d).map fun r => (re v r.1, r.2) := by
  induction fuel generalizing s d with
  | zero => rfl
  | succ f ih =>
    simp only [newtonLoop]
    by_cases h : s.cache.newt ≥ s.opts.max_newt_iter
    · have h' : (re v s).cache.newt ≥ (re v s).opts.max_newt_iter := h
      rw [if_pos h, if_pos h', re_halveStep]; rfl
    · have h' : ¬ (re v s).cache.newt ≥ (re v s).opts.max_newt_iter := h
      rw [if_neg h, if_neg h']
      have e : newtonSolve (newtonRhs (re v s)) = re v (newtonSolve (newtonRhs s)) := rfl
      rw [e]
      generalize newtonSolve (newtonRhs s) = a
      have e2 : newtonNorm (re v a) = newtonNorm a := rfl
      rw [e2, re_newtonCheck]
      generalize newtonNorm a = nn
      generalize newtonCheck a nn d = r
      obtain ⟨r1, r2⟩ := r
      cases r2 with
      | true => rfl
      | false =>
        simp only [Bool.false_eq_true, if_false]
        have e3 : newtonUpdate (re v r1) = re v (newtonUpdate r1) := rfl
        rw [e3]
        generalize newtonUpdate r1 = q
        by_cases h2 : Fl.le (q.cache.faccon * nn) q.opts.fnewt = true
        · have h3 : Fl.le ((re v q).cache.faccon * nn) (re v q).opts.fnewt = true := h2
          rw [if_pos h2, if_pos h3]; rfl
        · have h3 : ¬ Fl.le ((re v q).cache.faccon * nn) (re v q).opts.fnewt = true := h2
          rw [if_neg h2, if_neg h3]
          exact ih q _

theorem re_newton : newton (re v s) = (newton s).map fun r => (re v r.1, r.2) := by
  rw [newton_eq, newton_eq, re_newtonInit]
  exact re_newtonLoop v _ _ _

theorem re_decided : decided (re v s) = re v (decided s) := by
  have : error_estimate (re v s) = re v (error_estimate s) := by
    unfold error_estimate; simp only [apply_ite (re v)]; rfl
  unfold decided
  rw [this]; rfl

theorem re_finishNext : finishNext (re v s) = re v (finishNext s) := by
  unfold finishNext; simp only [apply_ite (re v)]; rfl

theorem re_nextStep (d : F) : nextStep (re v s) d = re v (nextStep s d) := by
  unfold nextStep
  simp only [apply_ite (re v), ← re_finishNext]
  rfl

theorem re_acceptState : acceptState (re v s) = re v (acceptState s) := by
  simp only [acceptState]
  by_cases h : s.opts.modern_pred = true
  · have h' : (re v s).opts.modern_pred = true := h
    rw [if_pos h, if_pos h']; rfl
  · have h' : ¬ (re v s).opts.modern_pred = true := h
    rw [if_neg h, if_neg h']; rfl

theorem re_acceptStep (q : F) : acceptStep (re v s) q = re v (acceptStep s q) := by
  have e1 : countAccept (re v s) = re v (countAccept s) := rfl
  have e2 : ∀ s : St F n P, stepQuotPred (re v s) q = stepQuotPred s q := by
    intro s; rfl
  have e3 : ∀ s : St F n P, newDeriv (re v s) = re v (newDeriv s) := fun _ => rfl
  simp only [acceptStep, e1, e2, re_acceptState, apply_ite (re v), e3, re_nextStep]
  rfl

theorem re_rejectStep (q : F) : rejectStep (re v s) q = re v (rejectStep s q) := by
  simp only [rejectStep]
  by_cases h : s.cache.first = true
  · have h' : (re v s).cache.first = true := h
    rw [if_pos h, if_pos h', apply_ite (re v)]; rfl
  · have h' : ¬ (re v s).cache.first = true := h
    rw [if_neg h, if_neg h', apply_ite (re v)]; rfl

theorem re_control : control (re v s) = re v (control s) := by
  rw [control_eq, control_eq, re_decided, re_acceptStep, re_rejectStep, apply_ite (re v)]
  rfl

theorem re_clampLast : clampLast (re v s) = re v (clampLast s) := by
  unfold clampLast; simp only [apply_ite (re v)]; rfl

theorem re_stepLoop (fuel : Nat) : stepLoop fuel (re v s) = (stepLoop fuel s).map (re v) := by
  induction fuel generalizing s with
  | zero => rfl
  | succ f ih =>
    simp only [stepLoop]
    rw [re_decPhase]
    cases decPhase (f + 1) s with
    | panic => rfl
    | timeout => rfl
    | ok r =>
      obtain ⟨a, b⟩ := r
      cases b with
      | false => rfl
      | true =>
        simp only [Res.map_ok, Res.bind_ok, Bool.not_true, Bool.false_eq_true, if_false]
        by_cases h1 : a.stats.steps + 1 ≥ a.opts.max_steps
        · rw [if_pos h1, if_pos (show (re v a).stats.steps + 1 ≥ (re v a).opts.max_steps from h1)]; rfl
        · rw [if_neg h1, if_neg (show ¬ (re v a).stats.steps + 1 ≥ (re v a).opts.max_steps from h1)]
          by_cases h2 : Fl.le (0.1 * Fl.abs a.dt) (Fl.abs a.t * Fl.eps) = true
          · rw [if_pos h2, if_pos (show Fl.le (0.1 * Fl.abs (re v a).dt) (Fl.abs (re v a).t * Fl.eps) = true
              from h2)]; rfl
          · rw [if_neg h2, if_neg (show ¬ Fl.le (0.1 * Fl.abs (re v a).dt) (Fl.abs (re v a).t * Fl.eps) = true
              from h2)]
            have e : { re v a with stats := { (re v a).stats with steps := (re v a).stats.steps + 1 } } =
              re v { a with stats := { a.stats with steps := a.stats.steps + 1 } } := rfl
            rw [e, re_newton]
            cases newton { a with stats := { a.stats with steps := a.stats.steps + 1 } } with
            | panic => rfl
            | timeout => rfl
            | ok r =>
              obtain ⟨b, conv⟩ := r
              simp only [Res.map_ok, Res.bind_ok]
              cases conv with
              | false => exact ih b
              | true =>
                simp only [Bool.not_true, Bool.false_eq_true, if_false]
                rw [re_control]
                by_cases h3 : (!(control b).cache.reject) = true
                · rw [if_pos h3, if_pos (show (!(re v (control b)).cache.reject) = true from h3)]; rfl
                · rw [if_neg h3, if_neg (show ¬ (!(re v (control b)).cache.reject) = true from h3)]
                  exact ih _

theorem re_step (fuel : Nat) : step fuel (re v s) = (step fuel s).map (re v) := by
  rw [step, step, re_clampLast, re_stepLoop]

end

theorem alike [FlInf F] (s : St F n P) (v : Over F n P) :
    BehaveAlike (alg : Algorithm F n P) s (re v s) ∧ BehaveAlike (alg : Algorithm F n P) (re v s) s := by
  constructor
  · refine BehaveAlike.of_sim (alg := alg) Radau.fuelMono (fun a b => b = re v a) ?_ ?_ ?_ rfl
    · rintro a b rfl; rfl
    · rintro fuel a b a' rfl h1
      exact ⟨re v a', by rw [show (alg : Algorithm F n P).step = step from rfl, re_step,
        show step fuel a = .ok a' from h1]; rfl, rfl⟩
    · rintro fuel a b rfl h1
      rw [show (alg : Algorithm F n P).step = step from rfl, re_step, show step fuel a = .panic from h1]; rfl
  · refine BehaveAlike.of_sim (alg := alg) Radau.fuelMono (fun a b => a = re v b) ?_ ?_ ?_ rfl
    · rintro a b rfl; rfl
    · rintro fuel a b a' rfl h1
      rw [show (alg : Algorithm F n P).step = step from rfl, re_step] at h1
      cases h2 : step fuel b with
      | ok b' => rw [h2] at h1; exact ⟨b', h2, (Res.ok.inj h1).symm⟩
      | panic => rw [h2] at h1; simp at h1
      | timeout => rw [h2] at h1; simp at h1
    · rintro fuel a b rfl h1
      rw [show (alg : Algorithm F n P).step = step from rfl, re_step] at h1
      show step fuel b = .panic
      cases h2 : step fuel b with
      | ok b' => rw [h2] at h1; simp at h1
      | panic => rfl
      | timeout => rw [h2] at h1; simp at h1

end Radau

section
variable [FlInf F]

/-! ### C04 -/

/-- **C04** (DormandPrince5). Adding any calls of the setters for `dtstart`, `hess`, `modern_pred`, `quot1`,
`quot2`, `fnewt`, `use_ext_col`, `max_newt_iter`, `dfdu` and `dfdt` to the construction of an integrator
changes nothing in its behaviour. -/
theorem C04_ignored_options_dp5 (b : Builder F n P) (l : List (Setter F n P))
    (hl : ∀ x ∈ l, IgnoredDP5 x) {s s' : DP5.St F n P} (hs : b.build DP5.alg = .ok s)
    (hs' : (b.sets l).build DP5.alg = .ok s') :
    s'.view = s.view ∧ BehaveAlike DP5.alg s s' ∧ BehaveAlike DP5.alg s' s := by
  have key : ∀ (l : List (Setter F n P)) (b : Builder F n P) (s s' : DP5.St F n P),
      (∀ x ∈ l, IgnoredDP5 x) → b.build DP5.alg = .ok s → (b.sets l).build DP5.alg = .ok s' →
      DP5.norm s = DP5.norm s' := by
    intro l
    induction l with
    | nil =>
      intro b s s' _ h h'
      have : Res.ok s = Res.ok s' := h.symm.trans h'
      rw [Res.ok.inj this]
    | cons x l ih =>
      intro b s s' hl h h'
      obtain ⟨s1, h1⟩ : ∃ s1, (b.set x).build DP5.alg = .ok s1 := ⟨_, rfl⟩
      rw [← ih (b.set x) s1 s' (fun y hy => hl y (List.mem_cons_of_mem _ hy)) h1 h']
      have hx := hl x List.mem_cons_self
      have e : s = _ := (Res.ok.inj h).symm
      have e1 : s1 = _ := (Res.ok.inj h1).symm
      rw [e, e1]
      cases x <;> first | rfl | exact absurd hx (by simp [IgnoredDP5])
  have h := key l b s s' hl hs hs'
  exact ⟨(congrArg Integ.view h).symm, DP5.alike h, DP5.alike h.symm⟩

/-- **C04** (Radau5). The same for `dtstart`, `hess`, `max_stiff`, `beta` and `dfdt`. -/
theorem C04_ignored_options_radau (b : Builder F n P) (l : List (Setter F n P))
    (hl : ∀ x ∈ l, IgnoredRadau x) {s s' : Radau.St F n P} (hs : b.build Radau.alg = .ok s)
    (hs' : (b.sets l).build Radau.alg = .ok s') :
    s'.view = s.view ∧ BehaveAlike Radau.alg s s' ∧ BehaveAlike Radau.alg s' s := by
  have key : ∀ (l : List (Setter F n P)) (b : Builder F n P) (s s' : Radau.St F n P),
      (∀ x ∈ l, IgnoredRadau x) → b.build Radau.alg = .ok s → (b.sets l).build Radau.alg = .ok s' →
      ∃ v, s' = Radau.re v s := by
    intro l
    induction l with
    | nil =>
      intro b s s' _ h h'
      have : Res.ok s = Res.ok s' := h.symm.trans h'
      rw [Res.ok.inj this]
      exact ⟨⟨s'.opts.dtstart, s'.opts.hess, s'.opts.max_stiff, s'.opts.beta, s'.dfdt⟩, rfl⟩
    | cons x l ih =>
      intro b s s' hl h h'
      obtain ⟨s1, h1⟩ : ∃ s1, (b.set x).build Radau.alg = .ok s1 := ⟨_, rfl⟩
      obtain ⟨v, hv⟩ := ih (b.set x) s1 s' (fun y hy => hl y (List.mem_cons_of_mem _ hy)) h1 h'
      have hx := hl x List.mem_cons_self
      refine ⟨v, ?_⟩
      have e : s = _ := (Res.ok.inj h).symm
      have e1 : s1 = _ := (Res.ok.inj h1).symm
      rw [hv, e, e1]
      cases x <;> first | rfl | exact absurd hx (by simp [IgnoredRadau])
  obtain ⟨v, rfl⟩ := key l b s s' hl hs hs'
  exact ⟨rfl, Radau.alike s v⟩

/-- The step size of a freshly built integrator does not depend on `dtstart`. -/
theorem C04_first_step_size (dudt : Rhs F n P) (u : Vec n F) (ts : F × F) (p : P)
    (l : List (Setter F n P)) :
    (∀ s, ((Builder.default DP5.alg dudt u ts p).sets l).build DP5.alg = .ok s → s.dt = 1e-6) ∧
    (∀ s, ((Builder.default Radau.alg dudt u ts p).sets l).build Radau.alg = .ok s → s.dt = 1e-6) := by
  have key : ∀ (l : List (Setter F n P)) (b : Builder F n P), b.dt = 1e-6 → (b.sets l).dt = 1e-6 := by
    intro l
    induction l with
    | nil => exact fun b h => h
    | cons x l ih =>
      intro b h
      refine ih (b.set x) ?_
      cases x <;> exact h
  constructor
  · intro s h
    have e : s = _ := (Res.ok.inj h).symm
    rw [e]
    exact key l _ rfl
  · intro s h
    have e : s = _ := (Res.ok.inj h).symm
    rw [e]
    exact key l _ rfl

/-- With `dtstart` set to 100, the sample problem still takes its first step from 0 to 1e-6. -/
example : ∃ s s' : DP5.St X 1 Unit,
    ((DP5.sampleBuilder 1.1e-6).sets [.dtstart (X.fin 100), .max_newt_iter 3]).build DP5.alg = .ok s ∧
    StepReturns DP5.alg none s (some 1) s' ∧ s'.t = X.fin 1e-6 := by
  obtain ⟨s0, s1, -, hb, h1, -, -, -, t1, -⟩ := DP5.sample_run
  obtain ⟨s, hs⟩ : ∃ s : DP5.St X 1 Unit,
    ((DP5.sampleBuilder 1.1e-6).sets [.dtstart (X.fin 100), .max_newt_iter 3]).build DP5.alg = .ok s :=
    ⟨_, rfl⟩
  have := (C04_ignored_options_dp5 (DP5.sampleBuilder 1.1e-6) [.dtstart (X.fin 100), .max_newt_iter 3]
    (by simp [IgnoredDP5]) hb hs).2.1
  obtain ⟨a, a', h2, h3, h4⟩ := this.returns 0 s0 (some 1) s1 (.zero _) h1
  have : a = s := by
    obtain ⟨fuel, -⟩ := h3
    generalize hk : 0 = k at h2
    exact Steps.zero_eq hk h2
  subst this
  exact ⟨a, a', hs, h3, by rw [← t1]; exact congrArg View.t h4⟩

/-! ### C48 -/

/-- **C48** With `max_stiff = 0` no call of `step()` of DormandPrince5 ever returns … -/
theorem C48_max_stiff_zero_dp5 (cb : Option (Callback (DP5.alg : Algorithm F n P))) {s : DP5.St F n P}
    (hm : s.opts.max_stiff = 0) (o : Option Nat) (s' : DP5.St F n P) :
    ¬ StepReturns DP5.alg cb s o s' := by
  intro h
  obtain ⟨fuel, s1, h1, -⟩ := stepReturns_iff.1 h
  obtain ⟨k, s2, -, hr, -, h2, -⟩ := DP5.step_ok.1 h1
  have f := (DP5.Frame.clampLast s).trans hr.frame
  exact h2 (by rw [f.opts, hm])

/-- … and if some attempt of the call has an error estimate `<= 1`, the call panics: with `a` such that the
`a`-th attempt is the first one with error `<= 1`. -/
theorem C48_max_stiff_zero_panics_dp5 (cb : Option (Callback (DP5.alg : Algorithm F n P)))
    {s s' : DP5.St F n P} {a : Nat} {o : Option Nat} {m : Nat}
    (h : DP5.StepAttempts a { s with opts := { s.opts with max_stiff := m } } o s')
    (hm : s.opts.max_stiff = 0) : Integ.step DP5.alg cb a s = .panic := by
  obtain ⟨s1, h1, -, -⟩ := integ_step_ok.1 h.1
  obtain ⟨k, s2, hk, hr, h2, -, -⟩ := DP5.step_ok.1 h1
  let g : Nat → DP5.St F n P → DP5.St F n P :=
    fun i x => { x with opts := { x.opts with max_stiff := i } }
  have gr : ∀ i x, DP5.retry (g i x) = g i (DP5.retry x) := by
    intro i x
    have : g i (DP5.rejected x) = DP5.rejected (g i x) := rfl
    simp only [DP5.retry, DP5.checkDtMin, apply_ite (g i)]
    rfl
  have key : ∀ {k : Nat} {x y : DP5.St F n P}, DP5.Rejs k x y →
      ∀ i, DP5.Rejs k { x with opts := { x.opts with max_stiff := i } }
        { y with opts := { y.opts with max_stiff := i } } := by
    intro k x y h i
    induction h with
    | zero => exact .zero _
    | succ h1 _ ih =>
      refine .succ h1 ?_
      exact cast (congrArg (fun z => DP5.Rejs _ z _) (gr i _).symm) ih
  have h3 := key hr 0
  have e : { DP5.clampLast { s with opts := { s.opts with max_stiff := m } } with
      opts := { (DP5.clampLast { s with opts := { s.opts with max_stiff := m } }).opts with max_stiff := 0 } } =
      DP5.clampLast s := by
    have hs : { s with opts := { s.opts with max_stiff := 0 } } = s := by
      cases s; rename_i o _ _ _ _; cases o; simp_all
    rw [← hs]
    simp only [DP5.clampLast]
    split <;> rfl
  rw [e] at h3
  simp only [Integ.step]
  have : DP5.step a s = .panic := by
    unfold DP5.step
    rw [DP5.attemptLoop_panic.2 ⟨k, _, hk, h3, h2, rfl⟩]
    rfl
  rw [this]
  rfl

/-- **C48** Any two positive values of `max_stiff` give the same behaviour. -/
theorem C48_max_stiff_irrelevant_dp5 (b : Builder F n P) (i : Nat) (hi : i ≠ 0)
    (hb : b.opts.max_stiff ≠ 0) {s s' : DP5.St F n P} (hs : b.build DP5.alg = .ok s)
    (hs' : (b.sets [.max_stiff i]).build DP5.alg = .ok s') :
    s'.view = s.view ∧ BehaveAlike DP5.alg s s' := by
  have h : DP5.norm s = DP5.norm s' := by
    have e : s = _ := (Res.ok.inj hs).symm
    have e1 : s' = _ := (Res.ok.inj hs').symm
    rw [e, e1]
    simp only [DP5.norm, Builder.sets, List.foldl_cons, List.foldl_nil, Builder.set]
    congr 2
    omega
  exact ⟨(congrArg Integ.view h).symm, DP5.alike h⟩

/-- **C48** The code `Stiff` is never produced, neither by DormandPrince5 nor by Radau5. -/
theorem C48_never_stiff {b : Builder F n P} :
    (∀ s0 k s, b.build DP5.alg = .ok s0 → Steps DP5.alg none k s0 s → s.sol.retcode ≠ .Stiff) ∧
    (∀ s0 k s, b.build Radau.alg = .ok s0 → Steps Radau.alg none k s0 s → s.sol.retcode ≠ .Stiff) := by
  constructor
  · intro s0 k s hb h hc
    have := (C10_return_codes_dp5 hb).1 k s h
    rw [hc] at this; simp at this
  · intro s0 k s hb h hc
    have := (C10_return_codes_radau hb).1 k s h
    rw [hc] at this; simp at this

end
end

/-- The sample problem with `max_stiff = 0` panics in the first call. -/
example : ∃ s : DP5.St X 1 Unit, ((DP5.sampleBuilder 1.1e-6).sets [.max_stiff 0]).build DP5.alg = .ok s ∧
    ∃ fuel, Integ.step DP5.alg none fuel s = .panic := by
  obtain ⟨s0, s1, -, hb, h1, -⟩ := DP5.sample_run
  obtain ⟨s, hs⟩ : ∃ s : DP5.St X 1 Unit,
    ((DP5.sampleBuilder 1.1e-6).sets [.max_stiff 0]).build DP5.alg = .ok s := ⟨_, rfl⟩
  have e : s0 = { s with opts := { s.opts with max_stiff := 1000 } } := by
    have e : s0 = _ := (Res.ok.inj hb).symm
    have e1 : s = _ := (Res.ok.inj hs).symm
    rw [e, e1]; rfl
  obtain ⟨a, ha⟩ := DP5.stepAttempts_exists h1
  rw [e] at ha
  refine ⟨s, hs, a, C48_max_stiff_zero_panics_dp5 none ha ?_⟩
  have e1 : s = _ := (Res.ok.inj hs).symm
  rw [e1]; rfl

end Cyphus
