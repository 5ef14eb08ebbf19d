import Verif.Proofs.DP5Live
import Verif.Props.Convergence
/-!
# C69: DormandPrince5 reaches `tfinal`
-/

namespace Cyphus
open X Set
set_option autoImplicit false
set_option linter.unusedSectionVars false
noncomputable section

variable {n : ℕ} {P : Type}

/-- Options for which the step is reduced after a rejected attempt, by a bounded factor, and not reduced if the error is small. The
defaults satisfy this. -/
structure DP5.Env.Live (E : DP5.Env n) : Prop where
  safe : E.sf < 1
  facl : E.fl < 1
  facr : 1 ≤ E.fr
  expo : 0 < DP5.expo E.be

theorem DP5.Env.Live.sane {E : DP5.Env n} (h : E.Live) : E.Sane := ⟨h.safe.le, h.facl.le, h.expo.le⟩

/-! ## The size of the error estimate -/

theorem Spec.errNorm_le {a r c : ℝ} (ha : 0 < a) (hr : 0 ≤ r) (hc : 0 ≤ c) {u u' e : Fin n → ℝ} (he : ∀ i, |e i| ≤ c) :
    Spec.errNorm a r u u' e ≤ c / a := by
  unfold Spec.errNorm
  rw [Real.sqrt_le_left (by positivity)]
  have h1 : ∀ i, (e i / (a + r * max |u i| |u' i|)) ^ 2 ≤ (c / a) ^ 2 := by
    intro i
    have h2 : 0 ≤ r * max |u i| |u' i| := mul_nonneg hr (le_max_of_le_left (abs_nonneg _))
    rw [sq_le_sq, abs_div, abs_of_pos (show 0 < a + r * max |u i| |u' i| by linarith), abs_of_nonneg (show 0 ≤ c / a by positivity)]
    exact div_le_div₀ hc (he i) ha (by linarith)
  by_cases hn : n = 0
  · subst hn; simp; positivity
  · rw [div_le_iff₀ (by positivity)]
    calc _ ≤ ∑ _i : Fin n, (c / a) ^ 2 := Finset.sum_le_sum fun i _ => h1 i
      _ = (c / a) ^ 2 * n := by simp [mul_comm]

/-- The error estimate is small if the step is, as long as the stages are bounded. -/
theorem DP5.err_le {E : DP5.Env n} (ha : 0 < E.a) (hr : 0 ≤ E.r) {t h M : ℝ} {u : Fin n → ℝ} (h0 : 0 ≤ h)
    (hM0 : 0 ≤ M) (hk : ∀ k, Spec.IsStages Spec.dopri5 E.f t u h k → ∀ j i, |k j i| ≤ M) : E.err t u h ≤ h * M / E.a := by
  obtain ⟨k, hs, he⟩ := (DP5.isErr_iff E.f t u h (DP5.uerrR E.f t u h)).2 rfl
  have hM := hk k hs
  refine Spec.errNorm_le ha hr (by positivity) fun i => ?_
  rw [he i, abs_mul, abs_of_nonneg h0]
  refine mul_le_mul_of_nonneg_left ?_ h0
  refine (Finset.abs_sum_le_sum_abs _ _).trans ?_
  calc _ ≤ ∑ j, |Spec.dopri5.b j - Spec.dopri5.bhat j| * M := Finset.sum_le_sum fun j _ => by
        rw [abs_mul]; exact mul_le_mul_of_nonneg_left (hM j i) (abs_nonneg _)
    _ = (∑ j, |Spec.dopri5.b j - Spec.dopri5.bhat j|) * M := by rw [Finset.sum_mul]
    _ ≤ 1 * M := by
        refine mul_le_mul_of_nonneg_right ?_ hM0
        simp only [Spec.dopri5, Fin.sum_univ_seven, Matrix.cons_val]
        norm_num [abs_of_neg, abs_of_pos]
    _ = M := one_mul M

/-! ## Progress -/

/-- If in all states of the run steps up to `hs` have small errors, the run ends with `Success`. -/
theorem DP5.live {E : DP5.Env n} {b : Builder X n P} {t0 : ℝ} {u0 : Fin n → ℝ} {s0 : DP5.St X n P} (H : DP5.Problem E b t0 u0)
    (hL : E.Live) (ht : t0 < E.tf) (hb : b.build DP5.alg = .ok s0) (hlb : ∀ t u, LocallyBounded E.f t u) {hs δ : ℝ} (hs0 : 0 < hs)
    (hacc : ∀ k s, Steps DP5.alg none k s0 s → ∀ t u, s.t = fin t → s.u = fv u → ∀ h, 0 ≤ h → h ≤ hs → t + h ≤ E.tf →
      E.err t u h ≤ E.small)
    (δ0 : 0 < δ) (δ1 : δ ≤ E.fl ^ 2 * 1e-6) (δ2 : δ ≤ E.fl ^ 2 * hs) (δ3 : ∀ m ∈ E.mx, δ ≤ m)
    (hε : max |t0| |E.tf| * Fl.eps < δ) (hmax : (E.tf - t0) / δ ≤ b.opts.max_steps) :
    ∃ s, IntegrateReturns DP5.alg none s0 s ∧ s.sol.retcode = .Success ∧ s.stats.steps ≤ (E.tf - t0) / δ + 1 := by
  have hS := hL.sane
  have hd : E.d = 1 := by rw [H.dir, if_pos (by linarith)]
  have hfl := H.ctl.facl_pos
  have hfl1 := hL.facl
  have hsf := H.ctl.safe_pos
  have hfl2 : E.fl ^ 2 ≤ E.fl := by nlinarith
  have e1 : δ ≤ E.fl * 1e-6 := δ1.trans (mul_le_mul_of_nonneg_right hfl2 (by norm_num))
  have e2 : δ ≤ 1e-6 := e1.trans (mul_le_of_le_one_left (by norm_num) hfl1.le)
  have e3 : δ ≤ E.fl * hs := δ2.trans (mul_le_mul_of_nonneg_right hfl2 hs0.le)
  let I : ℕ → DP5.St X n P → Prop := fun k s => ∃ t u h, DP5.Pos E s t u h ∧ 0 < h ∧ t0 + k * δ ≤ t ∧ t < E.tf ∧
    (k = 0 → h = 1e-6) ∧ (k ≠ 0 → δ ≤ h ∧ ∃ g, s.cache.facold = fin g ∧ 1e-4 ≤ g)
  have step : ∀ k s, SomeSteps DP5.alg none k s0 s → I k s → (∃ s', SomeSteps DP5.alg none (k + 1) s0 s' ∧ I (k + 1) s') ∨
      ∃ s, IntegrateReturns DP5.alg none s0 s ∧ s.sol.retcode = .Success ∧ s.stats.steps ≤ (E.tf - t0) / δ + 1 := by
    rintro k s hk ⟨t, u, h, Q, h0, ht1, ht2, hk0, hk1⟩
    obtain ⟨hcont, hlast⟩ := H.some_last hb hk
    obtain ⟨o, s', hst⟩ := C13_step_returns_dp5 H hS hL.safe hL.facl hb hk.steps fun t u _ _ => hlb t u
    have hst' := hst
    obtain ⟨⟨fuel, hst⟩, ho⟩ := stepReturns_none_iff.1 hst
    have hkδ : (0:ℝ) ≤ k * δ := by positivity
    have hacc1 : ∀ x, 0 ≤ x → x ≤ hs → t + x ≤ E.tf → E.err t u x ≤ E.small := hacc k s hk.steps t u Q.good.num.t Q.good.num.u
    have hacc' : ∀ x, 0 ≤ x → x ≤ hs → x ≤ E.tf - t → E.err t u x ≤ 1 := fun x h1 h2 h3 =>
      (hacc1 x h1 h2 (by linarith)).trans (min_le_left _ _)
    obtain ⟨j, h1, q, r, he, hq, q1, q2, et, edt, efo, el, ecode⟩ := Q.good.step_fac hS hst
    obtain ⟨j', h1', h5, -, -, Q', sp, -, p1, p2, p3, -, -⟩ := Q.step hS (by rw [hd]; ring) hst
    have eq : h1' = h1 := by
      have := et.symm.trans Q'.good.num.t
      injection this with this
      linarith
    subst eq
    have eh5 : h5 = DP5.nextH E.mx E.d (if j = 0 then s.cache.reject else true) h1' q := by
      have := Q'.good.num.dt.symm.trans edt
      injection this
    rw [hd] at p1 p2 p3 el eh5
    simp only [mul_one, sub_pos] at p1 p2 p3
    rw [mul_one] at el
    have h1p := p1 h0 ht2
    have h5p := p2 h1p
    have q0 : 0 < q := lt_of_lt_of_le (by have := H.ctl.facr_pos; positivity) q1
    obtain ⟨f1, f2, -, -⟩ := DP5.first_bound E (by rw [hd]; ring) (h := h) Q.behind
    rw [hd] at f1 f2
    simp only [mul_one, sub_pos] at f1 f2
    have hfirst := f2 h0 ht2
    have htabs : |t| ≤ max |t0| |E.tf| := by
      rcases abs_cases t with ⟨e, -⟩ | ⟨e, -⟩
      · rw [e]; exact (ht2.le.trans (le_abs_self _)).trans (le_max_right _ _)
      · rw [e]; exact le_trans (by linarith [neg_le_abs t0]) (le_max_left _ _)
    have hε' : |t| * Fl.eps < E.fl * hs := by
      have := mul_le_mul_of_nonneg_right htabs (RealFl.eps_pos).le
      linarith
    have hcode := ecode hs _ hacc' hε' hfirst.le f1
    have hsteps : s'.stats.steps = k + 1 := (C31_statistics_dp5 hb (.succ hk.steps hst')).1
    have hopts : s.opts = b.opts := (DP5.run_fields hb hk.steps).1
    have hkb : (k : ℝ) ≤ (E.tf - t0) / δ := by
      rw [le_div_iff₀ δ0]; linarith
    by_cases hl : s'.cache.last = true
    · right
      rw [hl, if_pos rfl] at hcode
      have ho' : o = none := by rw [ho, hcode]; rfl
      subst ho'
      refine ⟨s', (integrate_iff DP5.fuelMono).2 ⟨k, s, hk, hst'⟩, hcode, ?_⟩
      rw [hsteps]; push_cast; linarith
    · left
      replace hl : s'.cache.last = false := by simpa using hl
      have htf' := p3 hl h0 ht2
      -- the step taken
      have hfirst' : j = 0 → E.first t h = h := by
        intro hj
        unfold DP5.Env.first
        rw [if_neg]
        intro hc
        rw [hd, mul_one] at hc
        rw [hl, if_pos hj, if_pos hc] at el
        cases el
      have hh1 : h1' = h ∨ E.fl * hs ≤ h1' := by
        rcases r.floor hS hsf hfl hacc' hfirst.le f1 with ⟨e1, e2⟩ | e
        · exact .inl (e2.trans (hfirst' e1))
        · exact .inr e
      have hδ1 : δ ≤ h1' := by
        rcases hh1 with e | e
        · rw [e]
          by_cases hk' : k = 0
          · rw [hk0 hk']; exact e2
          · exact (hk1 hk').1
        · exact e3.trans e
      -- the proposed step
      have hq' : q ≤ 1 / E.fl := by
        refine q2.trans (max_le le_rfl ?_)
        have := hL.facr
        exact one_div_le_one_div_of_le hfl (by linarith)
      have hge : E.fl * h1' ≤ h1' / q := by
        rw [le_div_iff₀ q0]
        have h6 : E.fl * (1 / E.fl) = 1 := by field_simp
        calc E.fl * h1' * q ≤ E.fl * h1' * (1 / E.fl) := mul_le_mul_of_nonneg_left hq' (by positivity)
          _ = h1' * (E.fl * (1 / E.fl)) := by ring
          _ = h1' := by rw [h6, mul_one]
      have hδ2 : δ ≤ h1' / q := by
        by_cases hk' : k = 0
        · have h7 : δ ≤ E.fl * h1' := by
            rcases hh1 with e | e
            · rw [e, hk0 hk']; exact e1
            · refine δ2.trans ?_
              rw [sq, mul_assoc]
              exact mul_le_mul_of_nonneg_left e hfl.le
          exact h7.trans hge
        · by_cases hbig : h1' ≤ hs
          · obtain ⟨-, g, hg, hg1⟩ := hk1 hk'
            rw [hg] at hq
            have h8 : q ≤ 1 := DP5.quot_le_one Q.good.ctl hL.facr hL.expo hg1 (Real.sqrt_nonneg _)
              ((hacc1 h1' h1p.le hbig htf'.le).trans (min_le_right _ _)) hq
            refine hδ1.trans ?_
            rw [le_div_iff₀ q0]
            exact mul_le_of_le_one_right h1p.le h8
          · exact (e3.trans (mul_le_mul_of_nonneg_left (not_le.1 hbig).le hfl.le)).trans hge
      have hδ5 : δ ≤ h5 := by
        rw [eh5]
        exact DP5.le_nextH h1p.le q0 hδ1 hδ2 δ3 H.ctl.dtmax_pos
      have hcount : ((k + 1 : ℕ) : ℝ) ≤ (E.tf - t0) / δ := by
        rw [le_div_iff₀ δ0]; push_cast; linarith
      have hmx : ¬ s'.stats.steps > s.opts.max_steps := by
        rw [hsteps, hopts, not_lt]
        exact_mod_cast hcount.trans hmax
      rw [hl, if_neg (by simp), if_neg hmx, hcont] at hcode
      have ho' : o = some s'.stats.steps := by rw [ho, hcode]; rfl
      subst ho'
      refine ⟨s', .succ hk hst', _, _, _, Q', h5p, by push_cast; linarith, by linarith, by simp, fun _ => ⟨hδ5, _, efo, le_max_right _ _⟩⟩
  have all : ∀ k, (∃ s, SomeSteps DP5.alg none k s0 s ∧ I k s) ∨
      ∃ s, IntegrateReturns DP5.alg none s0 s ∧ s.sol.retcode = .Success ∧ s.stats.steps ≤ (E.tf - t0) / δ + 1 := by
    intro k
    induction k with
    | zero => exact .inl ⟨s0, .zero _, t0, u0, 1e-6, H.pos hb, by norm_num, by simp, ht, fun _ => rfl, by simp⟩
    | succ k ih =>
      rcases ih with ⟨s, h1, h2⟩ | h
      · exact step k s h1 h2
      · exact .inr h
  obtain ⟨k, hk⟩ := exists_nat_gt ((E.tf - t0) / δ)
  rcases all k with ⟨s, -, t, u, h, -, -, h1, h2, -⟩ | h
  · rw [div_lt_iff₀ δ0] at hk
    linarith
  · exact h

/-! ## Bounded right-hand sides -/

/-- **C69** DormandPrince5 reaches `tfinal`: a forward run for a right-hand side which is bounded by `M` (it need not be continuous)
ends with `Success` at `tfinal` after at most `(tf - t0) / δ + 1` steps, if `max_steps` is at least `(tf - t0) / δ`. Here `δ` is any
number below `facl² 1e-6`, `facl² abstol small / (M + 1)` and `dtmax`, but larger than the spacing of doubles; `small` depends on
`safe` and `beta` only and is more than 0.002 for the defaults. -/
theorem C69_success_bounded_dp5 {E : DP5.Env n} {b : Builder X n P} {t0 : ℝ} {u0 : Fin n → ℝ} {s0 : DP5.St X n P}
    (H : DP5.Problem E b t0 u0) (hL : E.Live) (ht : t0 < E.tf) {M δ : ℝ} (hM : ∀ t u i, |E.f t u i| ≤ M)
    (hb : b.build DP5.alg = .ok s0) (δ0 : 0 < δ) (δ1 : δ ≤ E.fl ^ 2 * 1e-6) (δ2 : δ ≤ E.fl ^ 2 * (E.a * E.small / (M + 1)))
    (δ3 : ∀ m ∈ E.mx, δ ≤ m) (hε : max |t0| |E.tf| * 2 ^ (-52 : ℤ) < δ) (hk : (E.tf - t0) / δ ≤ b.opts.max_steps) :
    ∃ s, IntegrateReturns DP5.alg none s0 s ∧ s.sol.retcode = .Success ∧ s.t = fin E.tf ∧
      s.stats.steps ≤ (E.tf - t0) / δ + 1 := by
  have ha := H.tol.abs_pos
  have hM0 : 0 ≤ M := (abs_nonneg _).trans (hM 0 0 ⟨0, Nat.pos_of_ne_zero H.dim⟩)
  have hσ : 0 < E.small := DP5.Env.small_pos H.ctl.safe_pos
  have hlb : ∀ t u, LocallyBounded E.f t u := fun t u => ⟨1, one_pos, M, fun t' u' _ _ i => hM t' u' i⟩
  have hlive := DP5.live H hL ht hb hlb (by positivity) ?_ δ0 δ1 δ2 δ3 hε hk
  · obtain ⟨s, h1, h2, h3⟩ := hlive
    exact ⟨s, h1, h2, (C25_success_dp5 H hb h1 h2).1, h3⟩
  · intro k s _ t u _ _ h h0 hh _
    refine (DP5.err_le (M := M) ha H.tol.rel_nonneg h0 hM0 fun k hk j i => by rw [hk j]; exact hM _ _ i).trans ?_
    rw [le_div_iff₀ (by positivity)] at hh
    rw [div_le_iff₀ ha]
    nlinarith

/-! ## Smooth right-hand sides -/

theorem Conv.locallyBounded {f : ℝ → (Fin n → ℝ) → Fin n → ℝ} (hf : Continuous (Function.uncurry f)) (t : ℝ) (u : Fin n → ℝ) :
    LocallyBounded f t u := by
  obtain ⟨M, hM⟩ := (isCompact_Icc.prod (isCompact_closedBall u 1)).exists_bound_of_continuousOn (s := Icc (t - 1) (t + 1) ×ˢ
    Metric.closedBall u 1) hf.continuousOn
  refine ⟨1, one_pos, M, fun t' u' h1 h2 i => ?_⟩
  have h3 := hM (t', u') ⟨by rw [abs_le] at h1; exact ⟨by linarith, by linarith⟩, by
    rw [Metric.mem_closedBall, dist_pi_le_iff zero_le_one]
    intro j; rw [Real.dist_eq]; exact h2 j⟩
  exact (norm_le_pi_norm (f t' u') i).trans h3

/-- **C69** DormandPrince5 solves smooth problems: for a continuous right-hand side with constants as in C68 and a sufficiently small
`dtmax`, a forward run ends with `Success` in a state whose distance from the solution at `tfinal` is at most the bound of C68, if
`max_steps` is at least `(tf - t0) / δ`. Here `δ` is any number below `facl² 1e-6`, `facl² / (25 (M + 1))`,
`facl² abstol small / (M + 1)` and `dtmax`, but larger than the spacing of doubles. -/
theorem C69_success_smooth_dp5 {E : DP5.Env n} {b : Builder X n P} {t0 R M L K h1 m h δ : ℝ} {y : ℝ → Fin n → ℝ} {s0 : DP5.St X n P}
    (H : DP5.Problem E b t0 (y t0)) (hL : E.Live) (ht : t0 < E.tf) (hf : Continuous (Function.uncurry E.f))
    (B : Spec.Bounded E.f t0 E.tf y R M L) (hK : 0 ≤ K) (hloc : Spec.LocalError E.f t0 E.tf y K h1)
    (hb : b.build DP5.alg = .ok s0) (hmx : E.mx = some m) (hh : h = 1.01 * max m 1e-6)
    (g1 : h ≤ h1) (g2 : 25 * M * h ≤ 1) (g3 : 50 * L * h ≤ 1)
    (g4 : K * (E.tf - t0) * Real.exp (4 * L * (E.tf - t0)) * h ^ 5 ≤ 1)
    (δ0 : 0 < δ) (δ1 : δ ≤ E.fl ^ 2 * 1e-6) (δ2 : δ ≤ E.fl ^ 2 * (1 / (25 * (M + 1))))
    (δ3 : δ ≤ E.fl ^ 2 * (E.a * E.small / (M + 1))) (δ4 : δ ≤ m) (hε : max |t0| |E.tf| * 2 ^ (-52 : ℤ) < δ)
    (hk : (E.tf - t0) / δ ≤ b.opts.max_steps) :
    ∃ s u, IntegrateReturns DP5.alg none s0 s ∧ s.sol.retcode = .Success ∧ s.t = fin E.tf ∧ s.u = fv u ∧
      s.stats.steps ≤ (E.tf - t0) / δ + 1 ∧
      ∀ i, |u i - y E.tf i| ≤ K * (E.tf - t0) * Real.exp (4 * L * (E.tf - t0)) * h ^ 5 := by
  have ha := H.tol.abs_pos
  have hσ : 0 < E.small := DP5.Env.small_pos H.ctl.safe_pos
  have hM0 := B.M0
  set hs := min (1 / (25 * (M + 1))) (E.a * E.small / (M + 1)) with hhs
  have hs0 : 0 < hs := by positivity
  have hs2 : hs ≤ 1 / (25 * (M + 1)) := min_le_left _ _
  have hs3 : hs ≤ E.a * E.small / (M + 1) := min_le_right _ _
  have hδ : δ ≤ E.fl ^ 2 * hs := by
    rw [hhs, mul_min_of_nonneg _ _ (sq_nonneg _)]
    exact le_min δ2 δ3
  have hlive := DP5.live H hL ht hb (Conv.locallyBounded hf) hs0 ?_ δ0 δ1 hδ
    (by intro m' hm'; rw [hmx] at hm'; cases hm'; exact δ4) hε hk
  · obtain ⟨s, i1, i2, i3⟩ := hlive
    obtain ⟨k, s1, hk1, hk2⟩ := (integrate_iff DP5.fuelMono).1 i1
    obtain ⟨l, -, -, -, h⟩ := C68_dtmax_dp5 H hL.sane ht.le B hK hloc hb (.succ hk1.steps hk2) hmx hh g1 g2 g3 g4
    obtain ⟨u, e1, e2, e3⟩ := h i2 i1
    exact ⟨s, u, i1, i2, e1, e2, i3, e3⟩
  · intro k s hs t u et eu x x0 hx htx
    obtain ⟨l, hl, -, hall, -⟩ := C68_dtmax_dp5 H hL.sane ht.le B hK hloc hb hs hmx hh g1 g2 g3 g4
    obtain ⟨l', t', u', h', Q, -, -, hl', -, hlast, -, -⟩ := DP5.forward_chain H hL.sane ht.le hb hs
    obtain rfl := hl.unique hl'
    obtain rfl : t = t' := by have := et.symm.trans Q.good.num.t; injection this
    obtain rfl : u = u' := by
      have := eu.symm.trans Q.good.num.u
      funext i
      have := congrFun this i
      injection this
    obtain ⟨ht1, hu1⟩ := hall _ (List.mem_of_getLast? hlast)
    have hu : ‖u‖ ≤ R + 2 - 1 := by
      have h3 : ‖u - y t‖ ≤ 1 := (pi_norm_le_iff_of_nonneg zero_le_one).2 fun i => (hu1 i).trans g4
      have h4 := norm_le_norm_add_norm_sub' u (y t)
      have h5 : ‖y t‖ ≤ R := (pi_norm_le_iff_of_nonneg B.R0).2 (B.sol t ht1)
      linarith
    have hM1 : 25 * M * x ≤ 1 := by
      have := hx.trans hs2
      rw [le_div_iff₀ (by positivity)] at this
      nlinarith
    have B' := B.conv
    refine (DP5.err_le (M := M) ha H.tol.rel_nonneg x0 hM0 fun k hk j i => ?_).trans ?_
    · obtain ⟨e0, e1, e2, e3, e4, e5, e6⟩ := DP5.stages hk
      refine (norm_le_pi_norm (k j) i).trans ?_
      fin_cases j
      · exact e0 ▸ Conv.bk1 B' hu ht1.1 x0 htx hM1
      · exact e1 ▸ Conv.bk2 B' hu ht1.1 x0 htx hM1
      · exact e2 ▸ Conv.bk3 B' hu ht1.1 x0 htx hM1
      · exact e3 ▸ Conv.bk4 B' hu ht1.1 x0 htx hM1
      · exact e4 ▸ Conv.bk5 B' hu ht1.1 x0 htx hM1
      · exact e5 ▸ Conv.bk6 B' hu ht1.1 x0 htx hM1
      · exact e6 ▸ B'.bd _ ⟨by linarith [ht1.1], htx⟩ _ (Conv.bstep B' hu ht1.1 x0 htx hM1)
    · have := hx.trans hs3
      rw [le_div_iff₀ (by positivity)] at this
      rw [div_le_iff₀ ha]
      nlinarith

/-! ## Examples -/

theorem DP5.default_expo : (0.1 : ℝ) ≤ DP5.expo 0.04 := by
  have h1 : (0.04 : ℝ) ^ (0.75 : ℝ) ≤ 0.1 := by
    rw [← Real.rpow_le_rpow_iff (z := 4) (by positivity) (by norm_num) (by norm_num), ← Real.rpow_mul (by norm_num)]
    norm_num
  unfold DP5.expo
  linarith

theorem DP5.default_small (f : ℝ → (Fin n → ℝ) → Fin n → ℝ) (t0 tf : ℝ) : 0.002 ≤ (DP5.defaultEnv f t0 tf).small := by
  refine le_min (by norm_num) ?_
  change (0.002 : ℝ) ≤ (0.9 * (1e-4 : ℝ) ^ (0.04 : ℝ)) ^ (1 / DP5.expo 0.04)
  have h1 := DP5.default_expo
  have h2 : (0.6 : ℝ) ≤ (1e-4 : ℝ) ^ (0.04 : ℝ) := by
    rw [← Real.rpow_le_rpow_iff (z := 25) (by norm_num) (by positivity) (by norm_num), ← Real.rpow_mul (by norm_num)]
    norm_num
  have h3 : 1 / DP5.expo 0.04 ≤ 10 := by
    rw [div_le_iff₀ (by linarith)]; linarith
  calc (0.002 : ℝ) ≤ 0.54 ^ (10 : ℝ) := by norm_num
    _ ≤ 0.54 ^ (1 / DP5.expo 0.04) := Real.rpow_le_rpow_of_exponent_ge (by norm_num) (by norm_num) h3
    _ ≤ _ := Real.rpow_le_rpow (by norm_num) (by linarith) (by positivity)

/-- The default options qualify. -/
theorem DP5.default_live (f : ℝ → (Fin n → ℝ) → Fin n → ℝ) (t0 tf : ℝ) : (DP5.defaultEnv f t0 tf).Live :=
  ⟨by norm_num [DP5.defaultEnv], by norm_num [DP5.defaultEnv], by norm_num [DP5.defaultEnv],
    lt_of_lt_of_le (by norm_num) DP5.default_expo⟩

/-- A right-hand side which jumps, with default options except `max_steps`: `u' = 1` below `u = 1/2` and `u' = -1` above, so that the
states stay close to the jump. -/
example : ∃ (b : Builder X 1 Unit) (s0 s : DP5.St X 1 Unit), b.build DP5.alg = .ok s0 ∧ IntegrateReturns DP5.alg none s0 s ∧
    b.dudt = (fun _ _ u _ i => if Fl.lt (u i) (fin 0.5) then fin 1 else fin (-1)) ∧ s.sol.retcode = .Success ∧ s.t = fin 1 := by
  have Q := DP5.default_problem (n := 1) (P := Unit) one_ne_zero
    (dudt := fun _ _ u _ i => if Fl.lt (u i) (fin 0.5) then fin 1 else fin (-1)) (p := ())
    (f := fun _ u i => if u i < 0.5 then 1 else -1) (fun _ t u => by funext i; simp [fv]; split <;> rfl) 0 1 (fun _ => 0)
  have H : DP5.Problem (DP5.defaultEnv (n := 1) (fun _ u i => if u i < 0.5 then 1 else -1) 0 1)
      ((Builder.default DP5.alg (fun (_ : Unit) (_ : Fin 1 → X) u _ i => if Fl.lt (u i) (fin 0.5) then fin 1 else fin (-1)) (fv fun _ => 0)
        (fin 0, fin 1) ()).sets [.max_steps (10 ^ 12)]) 0 (fun _ => 0) :=
    ⟨Q.rhs, Q.u, Q.t, Q.dt, Q.tfinal, Q.dir, ⟨Q.tol.abstol, Q.tol.reltol, Q.tol.abs_pos,
      Q.tol.rel_nonneg⟩, ⟨Q.ctl.safe, Q.ctl.facl, Q.ctl.facr, Q.ctl.beta, Q.ctl.safe_pos, Q.ctl.facl_pos,
      Q.ctl.facr_pos, Q.ctl.beta_nonneg, rfl, Q.ctl.dtmax_pos, Q.ctl.stiff⟩, Q.dim⟩
  have hσ := DP5.default_small (n := 1) (fun _ u i => if u i < 0.5 then 1 else -1) 0 1
  obtain ⟨s, h1, h2, h3, -⟩ := C69_success_bounded_dp5 (M := 1) (δ := 1e-12) H (DP5.default_live _ _ _) one_pos
    (fun t u i => by change |if u i < 0.5 then (1:ℝ) else -1| ≤ 1; split <;> simp) rfl (by norm_num)
    (by change (1e-12 : ℝ) ≤ 0.2 ^ 2 * 1e-6; norm_num)
    (by change (1e-12 : ℝ) ≤ 0.2 ^ 2 * (1e-7 * _ / _); linarith)
    (by rintro m ⟨⟩) (by change max |(0:ℝ)| |1| * _ < _; norm_num)
    (by change ((1:ℝ) - 0) / _ ≤ ((10 ^ 12 : ℕ) : ℝ); norm_num)
  exact ⟨_, _, s, rfl, h1, rfl, h2, h3⟩

/-- The problem `u' = -u` of C68: the result differs from `1/e` by less than `1e-10`. -/
theorem DP5.decay_success : ∃ (s0 s : DP5.St X 1 Unit) (u : Fin 1 → ℝ), (DP5.decayBuilder (10 ^ 12)).build DP5.alg = .ok s0 ∧
    IntegrateReturns DP5.alg none s0 s ∧ s.sol.retcode = .Success ∧ s.t = fin 1 ∧ s.u = fv u ∧ |u 0 - Real.exp (-1)| ≤ 1e-10 := by
  have hσ := DP5.default_small (n := 1) (fun _ u i => -u i) 0 1
  have hL := DP5.default_live (n := 1) (fun _ u i => -u i) 0 1
  obtain ⟨s, u, h1, h2, h3, h4, -, h5⟩ := C69_success_smooth_dp5 (y := fun t _ => Real.exp (-t)) (m := 0.01) (h := 0.0101) (δ := 1e-12)
    (DP5.decay_problem (10 ^ 12)) ⟨hL.safe, hL.facl, hL.facr, hL.expo⟩ one_pos
    (continuous_pi fun i => ((continuous_apply i).comp continuous_snd).neg)
    DP5.decay_bounded (by norm_num) DP5.decay_local rfl rfl (by rw [max_eq_left (by norm_num)]; norm_num) (by norm_num)
    (by norm_num) (by norm_num) DP5.decay_small (by norm_num)
    (by change (1e-12 : ℝ) ≤ 0.2 ^ 2 * 1e-6; norm_num)
    (by change (1e-12 : ℝ) ≤ 0.2 ^ 2 * _; norm_num)
    (by
      change (1e-12 : ℝ) ≤ 0.2 ^ 2 * (1e-7 * DP5.Env.small (DP5.defaultEnv (n := 1) (fun _ u i => -u i) 0 1) / _)
      linarith)
    (by norm_num) (by change max |(0:ℝ)| |1| * _ < _; norm_num)
    (by change ((1:ℝ) - 0) / _ ≤ ((10 ^ 12 : ℕ) : ℝ); norm_num)
  refine ⟨_, s, u, rfl, h1, h2, h3, h4, (h5 0).trans ?_⟩
  have h6 : Real.exp (4 * 1 * (DP5.decayEnv.tf - 0)) = Real.exp 1 ^ 4 := by
    rw [← Real.exp_nat_mul]; norm_num [DP5.decayEnv, DP5.defaultEnv]
  have h7 : Real.exp 1 ^ 4 ≤ 3 ^ 4 := pow_le_pow_left₀ (Real.exp_pos _).le (Real.exp_one_lt_d9.le.trans (by norm_num)) 4
  rw [h6, show DP5.decayEnv.tf = 1 from rfl]
  linarith

end
end Cyphus
