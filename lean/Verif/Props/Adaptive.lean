import Verif.Spec.Adaptive
import Verif.Proofs.DP5Live
import Verif.Props.Convergence
/-!
# C73: `DormandPrince5` is the adaptive Dormand-Prince method
-/

namespace Cyphus
open X
set_option autoImplicit false
set_option linter.unusedSectionVars false
noncomputable section

variable {n : ℕ} {P : Type}

namespace DP5
open Spec.Adaptive
variable {E : Env n} {s s' : St X n P} {t : ℝ} {u : Fin n → ℝ} {h : ℝ}

theorem trial_iff {u' : Fin n → ℝ} {e : ℝ} : Trial E t u h u' e ↔ u' = E.next t u h ∧ e = E.err t u h := by
  unfold Trial
  rw [isStep_iff]
  constructor
  · rintro ⟨rfl, v, hv, rfl⟩
    rw [isErr_iff] at hv
    subst hv
    exact ⟨rfl, rfl⟩
  · rintro ⟨rfl, rfl⟩
    exact ⟨rfl, _, (isErr_iff ..).2 rfl, rfl⟩

/-- The stored previous error. -/
def Old (x : X) : Option ℝ → Prop
  | none => x = fin 0
  | some g => x = fin g ∧ 0 < g

theorem powf_nn {e y : ℝ} (he : 0 ≤ e) (hy : 0 ≤ y) : Fl.powf (fin e) (fin y) = fin (e ^ y) := by
  rcases hy.lt_or_eq with h | rfl
  · exact powf_nonneg he h
  · change powX (fin e) (fin 0) = _
    rw [powX_fin, powR, if_pos rfl, Real.rpow_zero]

theorem quot_eq {o : Opts X} (C : Ctl o E.sf E.fl E.fr E.be E.mx) (hx : 0 ≤ expo E.be) {x : X} {g : Option ℝ} {e : ℝ}
    (hg : Old x g) (he : 0 ≤ e) : stepFac o x (fin e) = fin (quot E g e) := by
  unfold stepFac quot
  rw [C.fac11, C.beta, C.facl, C.facr, C.safe]
  change Fl.max _ (Fl.min _ (Fl.powf (fin e) (fin (expo E.be)) / _ / _)) = _
  rw [powf_nn he hx, inv_fin C C.facl_pos, inv_fin C C.facr_pos]
  cases g with
  | some g =>
    obtain ⟨rfl, g0⟩ := hg
    have gb : 0 < g ^ E.be := Real.rpow_pos_of_pos g0 _
    rw [powf_fin g0, div_fin gb.ne', div_fin C.safe_pos.ne', min_fin, max_fin]
    rfl
  | none =>
    cases hg
    by_cases hb : E.be = 0
    · rw [hb, powf_nn le_rfl le_rfl, Real.rpow_zero, div_fin one_ne_zero, div_one, div_fin C.safe_pos.ne', min_fin, max_fin]
      simp [expo]
    · have hb0 : 0 < E.be := lt_of_le_of_ne C.beta_nonneg (Ne.symm hb)
      rw [powf_zero hb0]
      simp only [hb, if_false]
      have hw : ∀ w : X, w = nan ∨ w = pinf → Fl.max (fin (1 / E.fr)) (Fl.min (fin (1 / E.fl)) w) = fin (max (1 / E.fr) (1 / E.fl)) := by
        rintro w (rfl | rfl)
        · change Fl.max (fin _) (fin _) = _; simp
        · change Fl.max (fin _) (fin _) = _; simp
      apply hw
      have he' : 0 ≤ e ^ expo E.be := Real.rpow_nonneg he _
      change div (if (0 : ℝ) = 0 then infSign (e ^ expo E.be) else _) _ = _ ∨ div (if (0 : ℝ) = 0 then infSign (e ^ expo E.be) else _) _ = _
      rw [if_pos rfl]
      rcases he'.lt_or_eq with h | h
      · right
        rw [show infSign (e ^ expo E.be) = pinf by simp [infSign, h]]
        change (if E.sf < 0 then ninf else pinf) = _
        rw [if_neg (not_lt.2 C.safe_pos.le)]
      · left
        rw [← h, show infSign (0 : ℝ) = nan by simp [infSign]]
        rfl

theorem Good.err_nonneg : 0 ≤ E.err t u h := Real.sqrt_nonneg _

/-- The rejected attempts of a call. -/
theorem Good.attempts (G : Good E s t u h) {k : ℕ} (hr : Rejs k s s') (he : Fl.le (errOf s') 1.0 = true) :
    ∃ tiny h', Attempts E t u h k tiny h' (E.next t u h') (E.err t u h') ∧ Good E s' t u h' ∧
      s'.sol.retcode = if tiny then .DtLessThanMin else s.sol.retcode := by
  induction hr generalizing h with
  | zero s =>
    rw [G.le_iff] at he
    exact ⟨false, h, .accept (trial_iff.2 ⟨rfl, rfl⟩) (by simpa using he), G, rfl⟩
  | @succ k s s' h1 h2 ih =>
    have G' := G.retry h1
    obtain ⟨tiny, h', a, G'', c⟩ := ih G' he
    have hlt : 1 < E.err t u h := by
      have := G.le_iff.symm.trans h1
      simpa using this
    refine ⟨_, h', .reject (trial_iff.2 ⟨rfl, rfl⟩) hlt a, G'', ?_⟩
    rw [c, retry_retcode, G'.num.dt, G.num.t, abs_fin, abs_fin, eps_fin, mul_fin, le_fin]
    change (if _ then _ else if decide (|reduced E h (E.err t u h)| ≤ |t| * 2 ^ (-52 : ℤ)) = true then _ else _) = _
    cases tiny <;> simp

/-- Conversely. -/
theorem Good.of_attempts (G : Good E s t u h) {k : ℕ} {tiny : Bool} {h' e : ℝ} {u' : Fin n → ℝ}
    (ha : Attempts E t u h k tiny h' u' e) : ∃ s', Rejs k s s' ∧ Fl.le (errOf s') 1.0 = true := by
  induction ha generalizing s with
  | accept a b =>
    obtain ⟨-, rfl⟩ := trial_iff.1 a
    exact ⟨s, .zero s, by rw [G.le_iff]; simpa using b⟩
  | reject a b _ ih =>
    obtain ⟨-, rfl⟩ := trial_iff.1 a
    have hr : Fl.le (errOf s) 1.0 = false := by rw [G.le_iff]; simpa using b
    obtain ⟨s', r, e⟩ := ih (G.retry hr)
    exact ⟨s', .succ hr r, e⟩

theorem attempts_unique {k : ℕ} {tiny : Bool} {h' e : ℝ} {u' : Fin n → ℝ} (ha : Attempts E t u h k tiny h' u' e) :
    ∀ {k₁ tiny₁ h₁ u₁ e₁}, Attempts E t u h k₁ tiny₁ h₁ u₁ e₁ → k₁ = k ∧ tiny₁ = tiny ∧ h₁ = h' ∧ u₁ = u' ∧ e₁ = e := by
  induction ha with
  | accept a b =>
    intro k₁ tiny₁ h₁ u₁ e₁ ha
    obtain ⟨rfl, rfl⟩ := trial_iff.1 a
    cases ha with
    | accept a' b' =>
      obtain ⟨rfl, rfl⟩ := trial_iff.1 a'
      exact ⟨rfl, rfl, rfl, rfl, rfl⟩
    | reject a' b' =>
      obtain ⟨rfl, rfl⟩ := trial_iff.1 a'
      exact absurd b (not_le.2 b')
  | reject a b _ ih =>
    intro k₁ tiny₁ h₁ u₁ e₁ ha
    obtain ⟨rfl, rfl⟩ := trial_iff.1 a
    cases ha with
    | accept a' b' =>
      obtain ⟨rfl, rfl⟩ := trial_iff.1 a'
      exact absurd b' (not_le.2 b)
    | reject a' b' c' =>
      obtain ⟨rfl, rfl⟩ := trial_iff.1 a'
      obtain ⟨rfl, rfl, rfl, rfl, rfl⟩ := ih c'
      exact ⟨rfl, rfl, rfl, rfl, rfl⟩

/-- The state of the integrator is `x`. -/
structure Is (E : Env n) (s : St X n P) (x : State n) : Prop where
  good : Good E s x.t x.u x.h
  old : Old s.cache.facold x.err
  reject : s.cache.reject = false

theorem limit_eq {r : Bool} {h q : ℝ} : limit E r h (h / q) = nextH E.mx E.d r h q := rfl

/-- A call of the code is a call of the algorithm. -/
theorem Is.step {x : State n} (I : Is E s x) (hx : 0 ≤ expo E.be) (hl : s.cache.last = false) {fuel : ℕ}
    (hs : DP5.step fuel s = .ok s') : ∃ k tiny last x', Advance E x k tiny last x' ∧ Is E s' x' ∧ StepSpec k s s' ∧ s'.cache.last = last ∧
      s'.sol.retcode = if last then .Success else if s'.stats.steps > s.opts.max_steps then .MaxIters
        else if tiny then .DtLessThanMin else s.sol.retcode := by
  classical
  obtain ⟨k, s1, hk, hr, he, hm, rfl, sp⟩ := step_spec hs
  have G := I.good
  obtain ⟨tiny, h1, a, G1, c⟩ := G.clampLast.attempts hr he
  have f := (Frame.clampLast s).trans hr.spec.frame
  have hq := quot_eq G1.ctl hx (x := s1.cache.facold) (g := x.err) (by rw [f.facold]; exact I.old)
    (Good.err_nonneg (E := E) (t := x.t) (u := x.u) (h := h1))
  rw [← G1.err] at hq
  have hq0 : 0 < quot E x.err (E.err x.t x.u h1) :=
    lt_of_lt_of_le (by have := G.ctl.facr_pos; positivity) (le_max_left _ _)
  have hdt := G1.num.accepted_dt' G1.ctl G1.tdir hq hq0
  rw [hr.reject, (clampLast_stats s).2.2.2, I.reject] at hdt
  have hrej : (if k = 0 then false else true) = decide (k ≠ 0) := by by_cases h : k = 0 <;> simp [h]
  rw [hrej] at hdt
  have hlast : (finishStep (accepted s1)).cache.last = (decide (Reaches E x) && decide (k = 0)) := by
    rw [finishStep_cache, accepted_last, hr.last, G.clamp_last, hl]
    unfold Reaches
    by_cases h1 : k = 0 <;> by_cases h2 : 0 < (x.t + 1.01 * x.h - E.tf) * E.d <;> simp [h1, h2]
  obtain ⟨q, -, -, G2⟩ := G1.accepted
  have G3 := G2.finishStep
  have hnum : Num (finishStep (accepted s1)) E.f (x.t + h1) (E.next x.t x.u h1)
      (limit E (decide (k ≠ 0)) h1 (h1 / quot E x.err (E.err x.t x.u h1))) :=
    ⟨G3.num.t, G3.num.u, by rw [finishStep_dt, hdt]; rfl, G3.num.du, G3.num.rhs⟩
  have hold : Old (finishStep (accepted s1)).cache.facold (some (max (E.err x.t x.u h1) 1e-4)) := by
    refine ⟨?_, lt_of_lt_of_le (by norm_num) (le_max_right _ _)⟩
    rw [finishStep_cache, accepted_facold, G1.err, X.sci, max_fin]
  refine ⟨k, tiny, _, _, .mk a, ⟨⟨hnum, G3.tol, G3.ctl, G3.tdir, G3.tfinal, G3.dim⟩, hold, sp.reject⟩, sp, hlast, ?_⟩
  rw [finishStep_retcode, accepted_sol, c, (clampLast_stats s).2.1, ← hlast, finishStep_cache, accepted_opts, f.opts]
  simp

/-- A call of the algorithm is a call of the code. -/
theorem Is.of_advance {x : State n} (I : Is E s x) {k : ℕ} {tiny last : Bool} {x' : State n} (ha : Advance E x k tiny last x') :
    ∃ fuel s', DP5.step fuel s = .ok s' := by
  obtain ⟨a⟩ := ha
  have G := I.good.clampLast
  obtain ⟨s1, r, e⟩ := Good.of_attempts G (by convert a; rfl)
  refine ⟨k + 1, _, step_ok.2 ⟨k, s1, by omega, r, e, ?_, rfl⟩⟩
  rw [r.frame.opts]
  exact G.ctl.stiff

theorem advance_unique {x x' x₁ : State n} {k k₁ : ℕ} {tiny last tiny₁ last₁ : Bool} (h : Advance E x k tiny last x')
    (h₁ : Advance E x k₁ tiny₁ last₁ x₁) : k₁ = k ∧ tiny₁ = tiny ∧ last₁ = last ∧ x₁ = x' := by
  obtain ⟨a⟩ := h
  obtain ⟨a₁⟩ := h₁
  obtain ⟨rfl, rfl, rfl, rfl, rfl⟩ := attempts_unique a a₁
  exact ⟨rfl, rfl, rfl, rfl⟩

end DP5

/-! ## The theorems -/

section
open Spec.Adaptive
variable {E : DP5.Env n} {b : Builder X n P} {t0 : ℝ} {u0 : Fin n → ℝ} {s0 : DP5.St X n P}

/-- The integrator follows the run of the algorithm. -/
structure DP5.Follows (E : DP5.Env n) (N : ℕ) (s : DP5.St X n P) (j : ℕ) (x : State n) (l : List (ℝ × (Fin n → ℝ))) : Prop where
  is : DP5.Is E s x
  points : Recorded s.sol l
  steps : s.stats.steps = j
  max : s.opts.max_steps = N

theorem DP5.Follows.step {N j : ℕ} {s s' : DP5.St X n P} {x : State n} {l : List (ℝ × (Fin n → ℝ))} (W : DP5.Follows E N s j x l)
    (hx : 0 ≤ DP5.expo E.be) (hl : s.cache.last = false) (hc : s.sol.retcode = .Continue) {fuel : ℕ} (hs : DP5.step fuel s = .ok s') :
    ∃ k tiny last x', Advance E x k tiny last x' ∧ DP5.Follows E N s' (j + 1) x' (l ++ [(x'.t, x'.u)]) ∧ s'.cache.last = last ∧
      s'.sol.retcode = code N (j + 1) tiny last := by
  obtain ⟨k, tiny, last, x', a, I, sp, h1, h2⟩ := W.is.step hx hl hs
  refine ⟨k, tiny, last, x', a, ⟨I, ⟨?_, ?_⟩, by rw [sp.steps, W.steps], by rw [sp.opts, W.max]⟩, h1, ?_⟩
  · rw [sp.ts, W.points.1, I.good.num.t]; simp
  · rw [sp.us, W.points.2, I.good.num.u]; simp
  · rw [h2, sp.steps, W.steps, W.max, hc]; rfl

theorem DP5.follows_build (H : DP5.Problem E b t0 u0) (hb : b.build DP5.alg = .ok s0) :
    DP5.Follows E b.opts.max_steps s0 0 ⟨t0, u0, 1e-6, none⟩ [(t0, u0)] ∧ s0.cache.last = false ∧ s0.sol.retcode = .Continue := by
  obtain ⟨G, h1, h2, h3, h4, h5, h6, -, h8⟩ := H.build hb
  refine ⟨⟨⟨G, h8, h1⟩, ⟨by simp [h3], by simp [h4]⟩, by rw [h6]; rfl, ?_⟩, h2, h5⟩
  rw [(DP5.run_fields hb (Steps.zero (alg := DP5.alg) (cb := none) s0)).1]

theorem DP5.code_last {N j : ℕ} {tiny last : Bool} (h : code N j tiny last = .Continue) : last = false := by
  cases last
  · rfl
  · simp [code] at h

theorem DP5.follows_some (H : DP5.Problem E b t0 u0) (hx : 0 ≤ DP5.expo E.be) (hb : b.build DP5.alg = .ok s0) {j : ℕ} {s : DP5.St X n P}
    (hs : SomeSteps DP5.alg none j s0 s) : ∃ x l, Run E b.opts.max_steps ⟨t0, u0, 1e-6, none⟩ j x l .Continue ∧
      DP5.Follows E b.opts.max_steps s j x l ∧ s.cache.last = false ∧ s.sol.retcode = .Continue := by
  induction j generalizing s with
  | zero =>
    obtain rfl := SomeSteps.cases_zero hs
    obtain ⟨h1, h2, h3⟩ := DP5.follows_build H hb
    exact ⟨_, _, .start, h1, h2, h3⟩
  | succ j ih =>
    obtain ⟨s1, i, h1, h2⟩ := SomeSteps.cases_snoc hs
    obtain ⟨x, l, r, W, hl, hc⟩ := ih h1
    obtain ⟨⟨fuel, h3⟩, h4⟩ := stepReturns_none_iff.1 h2
    obtain ⟨k, tiny, last, x', a, W', h5, h6⟩ := W.step hx hl hc h3
    have hc' : s.sol.retcode = .Continue := by
      by_contra h; simp [h] at h4
    have r' := Run.call r a
    rw [← h6, hc'] at r'
    exact ⟨x', _, r', W', by rw [h5]; exact DP5.code_last (h6.symm.trans hc'), hc'⟩

theorem DP5.of_run (H : DP5.Problem E b t0 u0) (hx : 0 ≤ DP5.expo E.be) (hb : b.build DP5.alg = .ok s0) {j : ℕ} {x : State n}
    {l : List (ℝ × (Fin n → ℝ))} {c : RetCode} (hr : Run E b.opts.max_steps ⟨t0, u0, 1e-6, none⟩ j x l c) :
    (c = .Continue → ∃ s, SomeSteps DP5.alg none j s0 s ∧ DP5.Follows E b.opts.max_steps s j x l ∧ s.cache.last = false ∧
      s.sol.retcode = .Continue) ∧
    (c ≠ .Continue → ∃ s, IntegrateReturns DP5.alg none s0 s ∧ DP5.Follows E b.opts.max_steps s j x l ∧ s.sol.retcode = c) := by
  induction hr with
  | start =>
    obtain ⟨h1, h2, h3⟩ := DP5.follows_build H hb
    exact ⟨fun _ => ⟨s0, SomeSteps.zero (alg := DP5.alg) (cb := none) s0, h1, h2, h3⟩, fun h => absurd rfl h⟩
  | @call j x l k tiny last x' r a ih =>
    obtain ⟨s, hs, W, hl, hc⟩ := ih.1 rfl
    obtain ⟨fuel, s', h3⟩ := W.is.of_advance a
    obtain ⟨k₁, tiny₁, last₁, x₁, a₁, W', h5, h6⟩ := W.step hx hl hc h3
    obtain ⟨rfl, rfl, rfl, rfl⟩ := DP5.advance_unique a a₁
    have h7 : StepReturns DP5.alg none s _ s' := stepReturns_none_iff.2 ⟨⟨fuel, h3⟩, rfl⟩
    refine ⟨fun h => ?_, fun h => ?_⟩
    · rw [if_pos (h6.trans h)] at h7
      exact ⟨s', .succ hs h7, W', by rw [h5]; exact DP5.code_last h, h6.trans h⟩
    · rw [if_neg (by rw [h6]; exact h)] at h7
      exact ⟨s', (integrate_iff DP5.fuelMono).2 ⟨j, s, hs, h7⟩, W', h6⟩

/-- **C73** In exact arithmetic `integrate()` is the adaptive algorithm of `Spec/Adaptive.lean`: it returns with the recorded points
`l` and the code `c` if and only if the run of the algorithm from the initial data with the first step size 1e-6 ends
with these points and this code. -/
theorem C73_integrate_dp5 (H : DP5.Problem E b t0 u0) (hx : 0 ≤ DP5.expo E.be) (hb : b.build DP5.alg = .ok s0)
    (l : List (ℝ × (Fin n → ℝ))) (c : RetCode) :
    (∃ s, IntegrateReturns DP5.alg none s0 s ∧ Recorded s.sol l ∧ s.sol.retcode = c) ↔
      c ≠ .Continue ∧ ∃ j x, Run E b.opts.max_steps ⟨t0, u0, 1e-6, none⟩ j x l c := by
  constructor
  · rintro ⟨s, hs, hl, rfl⟩
    obtain ⟨j, s1, h1, h2⟩ := (integrate_iff DP5.fuelMono).1 hs
    obtain ⟨x, l', r, W, hla, hc⟩ := DP5.follows_some H hx hb h1
    obtain ⟨⟨fuel, h3⟩, h4⟩ := stepReturns_none_iff.1 h2
    obtain ⟨k, tiny, last, x', a, W', h5, h6⟩ := W.step hx hla hc h3
    refine ⟨fun h => by simp [h] at h4, j + 1, x', ?_⟩
    rw [h6, hl.unique W'.points]
    exact .call r a
  · rintro ⟨hc, j, x, hr⟩
    obtain ⟨s, h1, h2, h3⟩ := (DP5.of_run H hx hb hr).2 hc
    exact ⟨s, h1, h2.points, h3⟩

/-- **C73** The same for single calls of `step()`: after `j` calls which return `Some`, the integrator holds the time,
the state and the proposed step which the algorithm has after `j` calls, and the recorded points are those passed. -/
theorem C73_steps_dp5 (H : DP5.Problem E b t0 u0) (hx : 0 ≤ DP5.expo E.be) (hb : b.build DP5.alg = .ok s0)
    (j : ℕ) (t : ℝ) (u : Fin n → ℝ) (h : ℝ) (l : List (ℝ × (Fin n → ℝ))) :
    (∃ s, SomeSteps DP5.alg none j s0 s ∧ s.t = fin t ∧ s.u = fv u ∧ s.dt = fin h ∧ Recorded s.sol l) ↔
      ∃ g, Run E b.opts.max_steps ⟨t0, u0, 1e-6, none⟩ j ⟨t, u, h, g⟩ l .Continue := by
  constructor
  · rintro ⟨s, hs, h1, h2, h3, hl⟩
    obtain ⟨⟨t', u', h', g⟩, l', r, W, -, -⟩ := DP5.follows_some H hx hb hs
    have e1 := W.is.good.num.t.symm.trans h1
    have e2 := W.is.good.num.u.symm.trans h2
    have e3 := W.is.good.num.dt.symm.trans h3
    injection e1 with e1
    injection e3 with e3
    have e2 : u' = u := by
      funext i; have := congrFun e2 i; injection this
    dsimp only at e1 e3
    subst e1 e2 e3
    rw [hl.unique W.points]
    exact ⟨g, r⟩
  · rintro ⟨g, r⟩
    obtain ⟨s, h1, W, -⟩ := (DP5.of_run H hx hb r).1 rfl
    exact ⟨s, h1, W.is.good.num.t, W.is.good.num.u, W.is.good.num.dt, W.points⟩

/-- The run of the algorithm is unique. -/
theorem Spec.Adaptive.Run.unique {N j : ℕ} {x0 x x₁ : State n} {l l₁ : List (ℝ × (Fin n → ℝ))} {c c₁ : RetCode}
    (h : Run E N x0 j x l c) (h₁ : Run E N x0 j x₁ l₁ c₁) : x₁ = x ∧ l₁ = l ∧ c₁ = c := by
  induction h generalizing x₁ l₁ c₁ with
  | start => cases h₁; exact ⟨rfl, rfl, rfl⟩
  | call _ a ih =>
    cases h₁ with
    | call r₁ a₁ =>
      obtain ⟨rfl, rfl, -⟩ := ih r₁
      obtain ⟨rfl, rfl, rfl, rfl⟩ := DP5.advance_unique a a₁
      exact ⟨rfl, rfl, rfl⟩

/-- The theorem applies to the sample run, which ends with `Success` after two steps. -/
example : ∃ (E : DP5.Env 1) (b : Builder X 1 Unit) (s0 : DP5.St X 1 Unit) (l : List (ℝ × (Fin 1 → ℝ))),
    DP5.Problem E b 0 (fun _ => 0) ∧ 0 ≤ DP5.expo E.be ∧ b.build DP5.alg = .ok s0 ∧ l.length = 3 ∧
    ∃ j x, Run E b.opts.max_steps ⟨0, fun _ => 0, 1e-6, none⟩ j x l .Success := by
  obtain ⟨s0, s1, s2, hb, h1, h2, h3, -⟩ := DP5.sample_run
  have H := DP5.sample_problem 1.1e-6
  have hx := (DP5.default_sane (fun _ _ _ => 1) 0 1.1e-6 (n := 1)).expo
  have hs1 : SomeSteps DP5.alg none 1 s0 s1 := SomeSteps.succ (SomeSteps.zero _) h1
  obtain ⟨l, -, -, -, -, -, -, hl, hh, -, -, -⟩ := DP5.forward_chain H (DP5.default_sane _ _ _) (by norm_num [DP5.defaultEnv]) hb
    (.succ hs1.steps h2)
  obtain ⟨-, hr⟩ := (C73_integrate_dp5 H hx hb l .Success).1
    ⟨s2, (integrate_iff DP5.fuelMono).2 ⟨1, s1, hs1, h2⟩, hl, h3⟩
  refine ⟨_, _, s0, l, H, hx, hb, ?_, hr⟩
  obtain ⟨⟨f1, e1⟩, -⟩ := stepReturns_none_iff.1 h1
  obtain ⟨⟨f2, e2⟩, -⟩ := stepReturns_none_iff.1 h2
  obtain ⟨_, _, _, _, _, _, _, p1⟩ := DP5.step_spec e1
  obtain ⟨_, _, _, _, _, _, _, p2⟩ := DP5.step_spec e2
  have := congrArg List.length (hl.1.symm.trans (p2.ts.trans (by rw [p1.ts])))
  have h0 := (H.build hb).2.2.2.1
  rw [h0] at this
  simpa using this

end
end
end Cyphus
