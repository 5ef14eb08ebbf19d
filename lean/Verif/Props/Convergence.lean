import Verif.Proofs.Converge
import Mathlib.Analysis.Complex.ExponentialBounds
import Verif.Props.DP5Control
import Mathlib.Analysis.Calculus.Deriv.Inv
import Mathlib.Analysis.Calculus.Deriv.Prod
import Mathlib.Analysis.Calculus.ContDiff.Operations
/-!
# C68: convergence of DormandPrince5
-/

namespace Cyphus
open X Set
set_option autoImplicit false
set_option linter.unusedSectionVars false
noncomputable section

variable {n : ℕ} {P : Type}

/-- `y` solves `y' = f(t, y)` on `[t0, tf]`. -/
def Spec.IsSolution (f : ℝ → (Fin n → ℝ) → Fin n → ℝ) (t0 tf : ℝ) (y : ℝ → Fin n → ℝ) : Prop :=
  ∀ t ∈ Icc t0 tf, HasDerivWithinAt y (f t (y t)) (Icc t0 tf) t

theorem DP5.stages {f : ℝ → (Fin n → ℝ) → Fin n → ℝ} {t h : ℝ} {u : Fin n → ℝ} {k : Fin 7 → Fin n → ℝ}
    (hk : Spec.IsStages Spec.dopri5 f t u h k) : k 0 = Conv.k1 f t u ∧ k 1 = Conv.k2 f t u h ∧ k 2 = Conv.k3 f t u h ∧
      k 3 = Conv.k4 f t u h ∧ k 4 = Conv.k5 f t u h ∧ k 5 = Conv.k6 f t u h ∧ k 6 = f (t + h) (Conv.step f t u h) := by
  have e0 : k 0 = Conv.k1 f t u := by
    rw [hk 0]; simp [Spec.dopri5, Fin.sum_univ_seven, Conv.k1]
  have e1 : k 1 = Conv.k2 f t u h := by
    rw [hk 1, Conv.k2]; congr 1
    funext m; simp [Spec.dopri5, Fin.sum_univ_seven, e0, Conv.s2]
  have e2 : k 2 = Conv.k3 f t u h := by
    rw [hk 2, Conv.k3]; congr 1
    funext m; simp [Spec.dopri5, Fin.sum_univ_seven, e0, e1, Conv.s3, mul_add]
  have e3 : k 3 = Conv.k4 f t u h := by
    rw [hk 3, Conv.k4]; congr 1
    funext m; simp [Spec.dopri5, Fin.sum_univ_seven, e0, e1, e2, Conv.s4, mul_add]
  have e4 : k 4 = Conv.k5 f t u h := by
    rw [hk 4, Conv.k5]; congr 1
    funext m; simp [Spec.dopri5, Fin.sum_univ_seven, e0, e1, e2, e3, Conv.s5, mul_add]
  have e5 : k 5 = Conv.k6 f t u h := by
    rw [hk 5, Conv.k6]; congr 1
    funext m; simp [Spec.dopri5, Fin.sum_univ_seven, e0, e1, e2, e3, e4, Conv.s6, mul_add]
  refine ⟨e0, e1, e2, e3, e4, e5, ?_⟩
  rw [hk 6]; congr 1
  · simp [Spec.dopri5]
  · funext m; simp [Spec.dopri5, Fin.sum_univ_seven, e0, e2, e3, e4, e5, Conv.step, mul_add]

theorem DP5.step_of_isStep {f : ℝ → (Fin n → ℝ) → Fin n → ℝ} {t h : ℝ} {u u' : Fin n → ℝ}
    (H : Spec.IsStep Spec.dopri5 f t u h u') : u' = Conv.step f t u h := by
  obtain ⟨k, hk, hu⟩ := H
  obtain ⟨e0, -, e2, e3, e4, e5, -⟩ := DP5.stages hk
  funext m
  rw [hu]
  simp [Spec.dopri5, Fin.sum_univ_seven, e0, e2, e3, e4, e5, Conv.step, mul_add]

theorem Recorded.unique {sol : Solution X n} {l l' : List (ℝ × (Fin n → ℝ))} (hl : Recorded sol l) (hl' : Recorded sol l') :
    l = l' := by
  have e1 := hl.1.symm.trans hl'.1
  have e2 := hl.2.symm.trans hl'.2
  refine List.ext_getElem ?_ ?_
  · simpa using congrArg List.length e1
  · intro j h1 h2
    have e1 := List.getElem_of_eq e1 (i := j) (by simpa using h1)
    have e2 := List.getElem_of_eq e2 (i := j) (by simpa using h1)
    simp only [List.getElem_map] at e1 e2
    refine Prod.ext (by injection e1) ?_
    funext m
    have := congrFun e2 m
    injection this

section run
variable {E : DP5.Env n} {b : Builder X n P} {t0 : ℝ} {u0 : Fin n → ℝ} {s0 s : DP5.St X n P}

/-- The recorded points of a forward run, with the size of the steps. -/
theorem DP5.forward_chain (H : DP5.Problem E b t0 u0) (hS : E.Sane) (ht : t0 ≤ E.tf) (hb : b.build DP5.alg = .ok s0)
    {k : ℕ} (hs : Steps DP5.alg none k s0 s) :
    ∃ l t u h, DP5.Pos E s t u h ∧ 0 ≤ h ∧ (∀ m ∈ E.mx, h ≤ max m 1e-6) ∧ Recorded s.sol l ∧ l.head? = some (t0, u0) ∧
      l.getLast? = some (t, u) ∧ (∀ p ∈ l, p.1 ≤ t) ∧
      l.IsChain fun p q => p.1 ≤ q.1 ∧ Spec.IsStep Spec.dopri5 E.f p.1 p.2 (q.1 - p.1) q.2 ∧
        ∀ m ∈ E.mx, q.1 - p.1 ≤ 1.01 * max m 1e-6 := by
  have hd : E.d = 1 := by rw [H.dir, if_pos (by linarith)]
  induction k generalizing s with
  | zero =>
    obtain rfl := Steps.zero_eq rfl hs
    obtain ⟨G, -, -, h1, h2, -⟩ := H.build hb
    exact ⟨[(t0, u0)], t0, u0, 1e-6, H.pos hb, by norm_num, fun m _ => le_max_right _ _, ⟨by simp [h1], by simp [h2]⟩, rfl, rfl,
      by simp, by simp⟩
  | succ k ih =>
    obtain ⟨s1, o, h1, h2⟩ := Steps.cases_snoc hs
    obtain ⟨l, t, u, h, Q, h0, hm, hl, hh, hlast, hle, hc⟩ := ih h1
    have h2' := h2
    obtain ⟨⟨fuel, h2⟩, -⟩ := stepReturns_none_iff.1 h2
    obtain ⟨j, q, q0, r, -, -, -, G', -, hdp, sp⟩ := Q.good.step h2
    obtain ⟨j', q', h5, -, -, Q', -, -, -, -, -, -, -, p⟩ := Q.step hS (by rw [hd]; ring) h2
    have eq : q' = q := by
      have := G'.num.t.symm.trans Q'.good.num.t
      injection this with this
      linarith
    subst eq
    rw [hd] at p
    simp only [mul_one] at p
    obtain ⟨p1, p2⟩ := p h0
    obtain ⟨ρ, ρ0, ρ1, e1⟩ := r.sane hS Q.good.ctl.safe_pos Q.good.ctl.facl_pos
    obtain ⟨b1, -, b3, -⟩ := DP5.first_bound E (by rw [hd]; ring) (h := h) Q.behind
    rw [hd] at b1 b3
    simp only [mul_one] at b1 b3
    refine ⟨l ++ [(t + q', E.next t u q')], _, _, h5, Q', p2, ?_, ⟨?_, ?_⟩, ?_, by simp, ?_, ?_⟩
    · intro m hm'
      obtain ⟨h6, e6, b6⟩ := C28_dtmax_dp5 hb (by have := H.ctl; rw [hm'] at this; exact this) h1 h2' hdp
      rw [Q'.good.num.dt] at e6
      injection e6 with e6
      rw [e6]
      exact (le_abs_self _).trans (b6.trans (le_max_left _ _))
    · rw [sp.ts, hl.1, Q'.good.num.t]; simp
    · rw [sp.us, hl.2, Q'.good.num.u]; simp
    · rw [List.head?_append, hh]; rfl
    · intro p hp
      rcases List.mem_append.1 hp with hp | hp
      · have := hle p hp; linarith
      · simp at hp; subst hp; exact le_rfl
    · rw [List.isChain_append]
      refine ⟨hc, by simp, ?_⟩
      intro x hx y hy
      rw [hlast] at hx
      simp at hx hy
      subst hx hy
      refine ⟨by simpa using p1, ?_, ?_⟩
      · simp only [add_sub_cancel_left]
        exact (DP5.isStep_iff E.f t u q' _).2 rfl
      · intro m hm'
        have := hm m hm'
        generalize max m 1e-6 = B at this ⊢
        have hf : E.first t h ≤ 1.01 * B := by
          unfold DP5.Env.first
          rw [hd]
          split
          · rename_i hc; norm_num at hc ⊢; linarith
          · norm_num; linarith
        simp only [add_sub_cancel_left]
        rw [e1]
        have := b3 h0
        nlinarith

end run

/-! ## The error in the limit of small steps -/

/-- `R` bounds the solution; `M` and `L` are a bound and a Lipschitz constant of `f` near it (in the maximum norm). -/
structure Spec.Bounded (f : ℝ → (Fin n → ℝ) → Fin n → ℝ) (t0 tf : ℝ) (y : ℝ → Fin n → ℝ) (R M L : ℝ) : Prop where
  sol : ∀ t ∈ Icc t0 tf, ∀ i, |y t i| ≤ R
  R0 : 0 ≤ R
  M0 : 0 ≤ M
  L0 : 0 ≤ L
  bound : ∀ t ∈ Icc t0 tf, ∀ u, (∀ i, |u i| ≤ R + 2) → ∀ i, |f t u i| ≤ M
  lip : ∀ t ∈ Icc t0 tf, ∀ u v, (∀ i, |u i| ≤ R + 2) → (∀ i, |v i| ≤ R + 2) → ∀ D, (∀ i, |u i - v i| ≤ D) →
    ∀ i, |f t u i - f t v i| ≤ L * D

/-- One step which starts on the solution ends within `K h^6` of it, for steps `h ≤ h1`. -/
def Spec.LocalError (f : ℝ → (Fin n → ℝ) → Fin n → ℝ) (t0 tf : ℝ) (y : ℝ → Fin n → ℝ) (K h1 : ℝ) : Prop :=
  ∀ t h u', t0 ≤ t → 0 ≤ h → t + h ≤ tf → h ≤ h1 → Spec.IsStep Spec.dopri5 f t (y t) h u' → ∀ i, |u' i - y (t + h) i| ≤ K * h ^ 6

theorem Spec.Bounded.conv {f : ℝ → (Fin n → ℝ) → Fin n → ℝ} {t0 tf R M L : ℝ} {y : ℝ → Fin n → ℝ}
    (H : Spec.Bounded f t0 tf y R M L) : Conv.Bounds f t0 tf (R + 2) M L where
  M0 := H.M0
  L0 := H.L0
  bd t ht u hu := (pi_norm_le_iff_of_nonneg H.M0).2 fun i => H.bound t ht u (fun i => (norm_le_pi_norm u i).trans hu) i
  lip t ht u v hu hv := (pi_norm_le_iff_of_nonneg (mul_nonneg H.L0 (norm_nonneg _))).2 fun i =>
    H.lip t ht u v (fun i => (norm_le_pi_norm u i).trans hu) (fun i => (norm_le_pi_norm v i).trans hv) _
      (fun i => norm_le_pi_norm (u - v) i) i

/-- **C68** The order conditions hold: if the right-hand side has five continuous derivatives, one step of the method which starts
on a solution ends within `K h^6` of it; here `K` depends on the problem only, not on `t` and `h`. (By C15 every `step()` call makes
such a step.) There are also constants for the right-hand side, as the next theorem needs them. -/
theorem C68_local_order_dp5 {f : ℝ → (Fin n → ℝ) → Fin n → ℝ} (hf : ContDiff ℝ 5 (Function.uncurry f)) {t0 tf : ℝ} (ht : t0 < tf)
    {y : ℝ → Fin n → ℝ} (hy : Spec.IsSolution f t0 tf y) :
    (∃ K h1, 0 ≤ K ∧ 0 < h1 ∧ Spec.LocalError f t0 tf y K h1) ∧ ∃ R M L, Spec.Bounded f t0 tf y R M L := by
  obtain ⟨S⟩ := Conv.exists_setup hf ht hy
  constructor
  · obtain ⟨C, hC, h1, hh1, hb⟩ := S.local_error.bound
    refine ⟨C, h1, hC.le, hh1, fun t h u' h2 h3 h4 h5 hu i => ?_⟩
    rw [DP5.step_of_isStep hu]
    exact (norm_le_pi_norm (Conv.step f t (y t) h - y (t + h)) i).trans (hb t h h2 h3 h4 h5)
  · obtain ⟨R, hR⟩ := isCompact_Icc.exists_bound_of_continuousOn (f := y) (fun t ht => (hy t ht).continuousWithinAt)
    have hR0 : 0 ≤ R := (norm_nonneg _).trans (hR t0 ⟨le_rfl, ht.le⟩)
    obtain ⟨M, L, H⟩ := Conv.exists_bounds (a := t0) (b := tf) (hf.of_le (by norm_num)) (R + 2)
    have hn : ∀ u : Fin n → ℝ, (∀ i, |u i| ≤ R + 2) → ‖u‖ ≤ R + 2 := fun u hu => (pi_norm_le_iff_of_nonneg (by linarith)).2 hu
    refine ⟨R, M, L, fun t ht i => (norm_le_pi_norm (y t) i).trans (hR t ht), hR0, H.M0, H.L0, ?_, ?_⟩
    · exact fun t ht u hu i => (norm_le_pi_norm (f t u) i).trans (H.bd t ht u (hn u hu))
    · intro t ht u v hu hv D hD i
      refine (norm_le_pi_norm (f t u - f t v) i).trans ((H.lip t ht u v (hn u hu) (hn v hv)).trans ?_)
      exact mul_le_mul_of_nonneg_left ((pi_norm_le_iff_of_nonneg ((abs_nonneg _).trans (hD i))).2 hD) H.L0

/-- **C68** The global error: let `K`, `M` and `L` be constants of the problem as above. If no recorded step of a forward run is
longer than `h`, all recorded states are within `K T exp(4 L T) h^5` of the solution, where `T = tf - t0`, whatever the tolerances and
the other options. The step `h` has to be so small that `25 M h ≤ 1`, `50 L h ≤ 1` and that this bound is at most one. -/
theorem C68_global_dp5 {E : DP5.Env n} {b : Builder X n P} {t0 R M L K h1 h : ℝ} {y : ℝ → Fin n → ℝ} {s0 s : DP5.St X n P} {k : ℕ}
    {l : List (ℝ × (Fin n → ℝ))} (H : DP5.Problem E b t0 (y t0)) (hS : E.Sane) (ht : t0 ≤ E.tf)
    (B : Spec.Bounded E.f t0 E.tf y R M L) (hK : 0 ≤ K) (hloc : Spec.LocalError E.f t0 E.tf y K h1)
    (hb : b.build DP5.alg = .ok s0) (hs : Steps DP5.alg none k s0 s) (hl : Recorded s.sol l)
    (h0 : 0 ≤ h) (g1 : h ≤ h1) (g2 : 25 * M * h ≤ 1) (g3 : 50 * L * h ≤ 1)
    (g4 : K * (E.tf - t0) * Real.exp (4 * L * (E.tf - t0)) * h ^ 5 ≤ 1) (hch : l.IsChain fun p q => q.1 - p.1 ≤ h) :
    ∀ p ∈ l, ∀ i, |p.2 i - y p.1 i| ≤ K * (E.tf - t0) * Real.exp (4 * L * (E.tf - t0)) * h ^ 5 := by
  obtain ⟨l', t, u, h', Q, -, -, hl', hd, -, hle, hc⟩ := DP5.forward_chain H hS ht hb hs
  obtain rfl := hl.unique hl'
  have hb' := Q.behind
  rw [show E.d = 1 by rw [H.dir, if_pos (by linarith)], mul_one] at hb'
  intro p hp i
  refine (norm_le_pi_norm (p.2 - y p.1) i).trans ?_
  refine B.conv.global (fun t ht => ?_) hK ?_ h0 g1 g2 g3 g4 hd ?_ (fun p hp => (hle p hp).trans (by linarith)) p hp
  · rw [add_sub_cancel_right]
    exact (pi_norm_le_iff_of_nonneg B.R0).2 (B.sol t ht)
  · intro t h i1 i2 i3 i4
    refine (pi_norm_le_iff_of_nonneg (by positivity)).2 fun i => ?_
    obtain ⟨u', hu'⟩ : ∃ u', Spec.IsStep Spec.dopri5 E.f t (y t) h u' := ⟨_, (DP5.isStep_iff E.f t (y t) h _).2 rfl⟩
    have := hloc t h u' i1 i2 i3 i4 hu' i
    rwa [DP5.step_of_isStep hu'] at this
  · rw [List.isChain_iff_getElem] at hch hc ⊢
    intro j hj
    obtain ⟨c1, c2, -⟩ := hc j hj
    exact ⟨c1, hch j hj, DP5.step_of_isStep c2⟩

/-- **C68** DormandPrince5 is convergent of order five: for a problem whose right-hand side has five continuous derivatives and
whose solution exists on the whole span there are `C` and `hmax > 0` such that in every forward run, whatever the tolerances and the
other options, if no recorded step is longer than `h ≤ hmax`, all recorded states are within `C h^5` of the solution. (There are such
runs for every `h`: take small tolerances.) -/
theorem C68_order_five_dp5 {f : ℝ → (Fin n → ℝ) → Fin n → ℝ} (hf : ContDiff ℝ 5 (Function.uncurry f)) {t0 tf : ℝ} (ht : t0 < tf)
    {y : ℝ → Fin n → ℝ} (hy : Spec.IsSolution f t0 tf y) :
    ∃ C hmax : ℝ, 0 < hmax ∧ ∀ (P : Type) (E : DP5.Env n) (b : Builder X n P) (s0 s : DP5.St X n P) (k : ℕ)
      (l : List (ℝ × (Fin n → ℝ))) (h : ℝ), E.f = f → E.tf = tf → DP5.Problem E b t0 (y t0) → E.Sane →
      b.build DP5.alg = .ok s0 → Steps DP5.alg none k s0 s → Recorded s.sol l →
      0 ≤ h → h ≤ hmax → l.IsChain (fun p q => q.1 - p.1 ≤ h) →
      ∀ p ∈ l, ∀ i, |p.2 i - y p.1 i| ≤ C * h ^ 5 := by
  obtain ⟨⟨K, h1, hK, hh1, hloc⟩, R, M, L, B⟩ := C68_local_order_dp5 hf ht hy
  have hM := B.M0
  have hL := B.L0
  have hT : 0 < tf - t0 := by linarith
  have hD0 : 0 ≤ K * (tf - t0) * Real.exp (4 * L * (tf - t0)) := by positivity
  refine ⟨K * (tf - t0) * Real.exp (4 * L * (tf - t0)), min (min h1 1) (min (1 / (25 * M + 1)) (min (1 / (50 * L + 1))
    (1 / (K * (tf - t0) * Real.exp (4 * L * (tf - t0)) + 1)))), by positivity, ?_⟩
  rintro P E b s0 s k l h rfl rfl Hp hS hb hs hl h0 hh hch
  have g1 : h ≤ h1 := hh.trans ((min_le_left _ _).trans (min_le_left _ _))
  have g2 : h ≤ 1 := hh.trans ((min_le_left _ _).trans (min_le_right _ _))
  have g3 : h ≤ 1 / (25 * M + 1) := hh.trans ((min_le_right _ _).trans (min_le_left _ _))
  have g4 : h ≤ 1 / (50 * L + 1) := hh.trans ((min_le_right _ _).trans ((min_le_right _ _).trans (min_le_left _ _)))
  have g5 := hh.trans ((min_le_right _ _).trans ((min_le_right _ _).trans (min_le_right _ _)))
  rw [le_div_iff₀ (by positivity)] at g3 g4 g5
  have h5 : h ^ 5 ≤ h := by simpa using pow_le_pow_of_le_one h0 g2 (show 1 ≤ 5 by norm_num)
  refine C68_global_dp5 Hp hS ht.le B hK hloc hb hs hl h0 g1 (by linarith) (by linarith) ?_ hch
  nlinarith [mul_le_mul_of_nonneg_left h5 hD0]

/-- **C68** The error in terms of `dtmax`: with `dtmax = m`, and `h = 1.01 max(m, 1e-6)`, all recorded states are within
`K T exp(4 L T) h^5` of the solution. (The first step does not respect `dtmax`, see C28, and the last one can be longer by one per
cent.) -/
theorem C68_dtmax_dp5 {E : DP5.Env n} {b : Builder X n P} {t0 R M L K h1 m h : ℝ} {y : ℝ → Fin n → ℝ} {s0 s : DP5.St X n P} {k : ℕ}
    (H : DP5.Problem E b t0 (y t0)) (hS : E.Sane) (ht : t0 ≤ E.tf)
    (B : Spec.Bounded E.f t0 E.tf y R M L) (hK : 0 ≤ K) (hloc : Spec.LocalError E.f t0 E.tf y K h1)
    (hb : b.build DP5.alg = .ok s0) (hs : Steps DP5.alg none k s0 s) (hmx : E.mx = some m) (hh : h = 1.01 * max m 1e-6)
    (g1 : h ≤ h1) (g2 : 25 * M * h ≤ 1) (g3 : 50 * L * h ≤ 1)
    (g4 : K * (E.tf - t0) * Real.exp (4 * L * (E.tf - t0)) * h ^ 5 ≤ 1) :
    ∃ l, Recorded s.sol l ∧ l.length = k + 1 ∧ (∀ p ∈ l, p.1 ∈ Icc t0 E.tf ∧
        ∀ i, |p.2 i - y p.1 i| ≤ K * (E.tf - t0) * Real.exp (4 * L * (E.tf - t0)) * h ^ 5) ∧
      (s.sol.retcode = .Success → IntegrateReturns DP5.alg none s0 s →
        ∃ u, s.t = fin E.tf ∧ s.u = fv u ∧ ∀ i, |u i - y E.tf i| ≤ K * (E.tf - t0) * Real.exp (4 * L * (E.tf - t0)) * h ^ 5) := by
  obtain ⟨l, t, u, h', Q, -, -, hl, hd, hlast, hle, hc⟩ := DP5.forward_chain H hS ht hb hs
  have hB : 0 < max m 1e-6 := lt_of_lt_of_le (by norm_num) (le_max_right _ _)
  have hlen : l.length = k + 1 := by
    obtain ⟨l', h1, -, h2, -⟩ := C15_recorded_steps_dp5 H hb hs
    rw [← h2]
    simpa using congrArg List.length (hl.1.symm.trans h1.1)
  have key := C68_global_dp5 H hS ht B hK hloc hb hs hl (by rw [hh]; positivity) g1 g2 g3 g4
    (hc.imp fun p q h => by rw [hh]; exact h.2.2 m hmx)
  have hb' := Q.behind
  rw [show E.d = 1 by rw [H.dir, if_pos (by linarith)], mul_one] at hb'
  have hge : ∀ p ∈ l, t0 ≤ p.1 := by
    have hpw : l.Pairwise fun p q => p.1 ≤ q.1 := by
      have hm' : l.IsChain fun p q => p.1 ≤ q.1 := hc.imp fun p q h => h.1
      haveI : IsTrans (ℝ × (Fin n → ℝ)) fun p q => p.1 ≤ q.1 := ⟨fun _ _ _ h1 h2 => le_trans h1 h2⟩
      exact List.isChain_iff_pairwise.1 hm'
    rcases l with _ | ⟨x, l⟩
    · simp
    · simp only [List.head?_cons, Option.some.injEq] at hd
      subst hd
      intro p hp
      rcases List.mem_cons.1 hp with rfl | hp
      · exact le_rfl
      · exact List.rel_of_pairwise_cons hpw hp
  refine ⟨l, hl, hlen, fun p hp => ⟨⟨hge p hp, (hle p hp).trans (by linarith)⟩, key p hp⟩, fun hsc hi => ?_⟩
  have h1 := (C25_success_dp5 H hb hi hsc).1
  have h2 := Q.good.num.t
  rw [h1] at h2
  injection h2 with h2
  refine ⟨u, h1, Q.good.num.u, fun i => ?_⟩
  have := key (t, u) (List.mem_of_getLast? hlast) i
  rwa [← h2] at this

/-! A nonlinear smooth problem: `u' = -u^2`, `u(0) = 1`, with solution `1 / (1 + t)` on `[0, 1]`. -/

theorem DP5.square_smooth : ContDiff ℝ 5 (Function.uncurry fun (_ : ℝ) (u : Fin 1 → ℝ) (i : Fin 1) => -(u i * u i)) := by
  refine contDiff_pi.2 fun i => ?_
  have h : ContDiff ℝ 5 fun p : ℝ × (Fin 1 → ℝ) => p.2 i := (contDiff_apply ℝ ℝ i).comp contDiff_snd
  exact (h.mul h).neg

theorem DP5.square_solves : Spec.IsSolution (fun _ (u : Fin 1 → ℝ) i => -(u i * u i)) 0 1 fun t _ => 1 / (1 + t) := by
  intro t ht
  refine hasDerivWithinAt_pi.2 fun i => ?_
  have h1 : (1 + t) ≠ 0 := by have := ht.1; positivity
  have h2 : HasDerivAt (fun t : ℝ => (1 + t)⁻¹) (-1 / (1 + t) ^ 2) t := ((hasDerivAt_id t).const_add 1).inv h1
  simp only [one_div]
  refine h2.hasDerivWithinAt.congr_deriv ?_
  field_simp

example : ∃ K h1, 0 ≤ K ∧ 0 < h1 ∧ Spec.LocalError (n := 1) (fun _ u i => -(u i * u i)) 0 1 (fun t _ => 1 / (1 + t)) K h1 :=
  (C68_local_order_dp5 DP5.square_smooth one_pos DP5.square_solves).1

/-! Constants for `u' = -u`, `u(0) = 1`, with solution `exp(-t)` on `[0, 1]`, and `dtmax = 0.01`. -/

theorem DP5.decay_bounded : Spec.Bounded (n := 1) (fun _ u i => -u i) 0 1 (fun t _ => Real.exp (-t)) 1 3 1 where
  sol t ht i := by
    rw [abs_of_pos (Real.exp_pos _)]
    exact Real.exp_le_one_iff.2 (by linarith [ht.1])
  R0 := zero_le_one
  M0 := by norm_num
  L0 := zero_le_one
  bound t _ u hu i := by rw [abs_neg]; linarith [hu i]
  lip t _ u v _ _ D hD i := by rw [← abs_neg]; simpa [add_comm, sub_eq_add_neg] using hD i

theorem DP5.decay_local : Spec.LocalError (n := 1) (fun _ u i => -u i) 0 1 (fun t _ => Real.exp (-t)) 0.01 1 := by
  intro t h u' h1 h2 h3 h4 hu i
  rw [DP5.step_of_isStep hu]
  have e : Conv.step (fun (_ : ℝ) (u : Fin 1 → ℝ) i => -u i) t (fun _ => Real.exp (-t)) h i
      = (1 - h + h ^ 2 / 2 - h ^ 3 / 6 + h ^ 4 / 24 - h ^ 5 / 120 + h ^ 6 / 600) * Real.exp (-t) := by
    simp only [Conv.step, Conv.k6, Conv.s6, Conv.k5, Conv.s5, Conv.k4, Conv.s4, Conv.k3, Conv.s3, Conv.k2, Conv.s2, Conv.k1,
      Pi.add_apply, Pi.smul_apply, smul_eq_mul]
    ring
  change |_ - Real.exp (-(t + h))| ≤ _
  rw [e, neg_add, Real.exp_add, mul_comm (Real.exp (-t)), ← sub_mul, abs_mul, abs_of_pos (Real.exp_pos _)]
  have h5 := Real.exp_bound (x := -h) (by rw [abs_neg, abs_of_nonneg h2]; exact h4) (n := 6) (by norm_num)
  rw [abs_neg, abs_of_nonneg h2] at h5
  simp only [Finset.sum_range_succ, Finset.sum_range_zero, Nat.factorial] at h5
  have h6 : Real.exp (-t) ≤ 1 := Real.exp_le_one_iff.2 (by linarith)
  have h7 : |1 - h + h ^ 2 / 2 - h ^ 3 / 6 + h ^ 4 / 24 - h ^ 5 / 120 + h ^ 6 / 600 - Real.exp (-h)| ≤ 0.01 * h ^ 6 := by
    have h8 : 0 ≤ h ^ 6 := by positivity
    rw [abs_le] at h5 ⊢
    norm_num at h5 ⊢
    constructor <;> linarith [h5.1, h5.2]
  calc _ ≤ _ * 1 := mul_le_mul_of_nonneg_left h6 (abs_nonneg _)
    _ ≤ _ := by rw [mul_one]; exact h7

/-- This problem with `dtmax = 0.01`. -/
def DP5.decayEnv : DP5.Env 1 := { DP5.defaultEnv (fun _ u i => -u i) 0 1 with mx := some 0.01 }

def DP5.decayBuilder (N : ℕ) : Builder X 1 Unit :=
  (Builder.default DP5.alg (fun _ _ u _ i => -u i) (fv fun _ => Real.exp (-0)) (fin 0, fin 1) ()).sets [.dtmax 0.01, .max_steps N]

theorem DP5.decay_problem (N : ℕ) : DP5.Problem DP5.decayEnv (DP5.decayBuilder N) 0 fun _ => Real.exp (-0) := by
  have Q := DP5.default_problem (n := 1) (P := Unit) one_ne_zero (dudt := fun _ _ u _ i => -u i) (p := ())
    (f := fun _ u i => -u i) (fun _ _ _ => rfl) 0 1 (fun _ => Real.exp (-0))
  exact ⟨Q.rhs, Q.u, Q.t, Q.dt, Q.tfinal, Q.dir, ⟨Q.tol.abstol, Q.tol.reltol, Q.tol.abs_pos,
      Q.tol.rel_nonneg⟩, ⟨Q.ctl.safe, Q.ctl.facl, Q.ctl.facr, Q.ctl.beta, Q.ctl.safe_pos, Q.ctl.facl_pos,
      Q.ctl.facr_pos, Q.ctl.beta_nonneg, rfl, by rintro m ⟨⟩; norm_num, Q.ctl.stiff⟩, Q.dim⟩

theorem DP5.decay_sane : DP5.decayEnv.Sane :=
  ⟨(DP5.default_sane (n := 1) (fun _ _ _ => 1) 0 1).safe, (DP5.default_sane (n := 1) (fun _ _ _ => 1) 0 1).facl,
   (DP5.default_sane (n := 1) (fun _ _ _ => 1) 0 1).expo⟩

theorem DP5.decay_small : (0.01 : ℝ) * (1 - 0) * Real.exp (4 * 1 * (1 - 0)) * (0.0101 : ℝ) ^ 5 ≤ 1 := by
  have h1 : Real.exp (4 * 1 * (1 - 0)) = Real.exp 1 ^ 4 := by rw [← Real.exp_nat_mul]; norm_num
  have h2 : Real.exp 1 ^ 4 ≤ 3 ^ 4 := pow_le_pow_left₀ (Real.exp_pos _).le (Real.exp_one_lt_d9.le.trans (by norm_num)) 4
  rw [h1]
  linarith

/-- Runs of any length of this problem, and the bound for them. -/
example (N k : ℕ) : ∃ (s0 s : DP5.St X 1 Unit), (DP5.decayBuilder N).build DP5.alg = .ok s0 ∧ Steps DP5.alg none k s0 s ∧
    ∃ l, Recorded s.sol l ∧ l.length = k + 1 ∧ ∀ p ∈ l, p.1 ∈ Icc 0 1 ∧ |p.2 0 - Real.exp (-p.1)| ≤ 1e-10 := by
  have hlb : ∀ t u, LocallyBounded (n := 1) (fun _ u i => -u i) t u := fun t u =>
    ⟨1, one_pos, |u 0| + 1, fun _ u' _ h i => by
      have := h i
      have h2 := abs_add_le (u' i - u i) (u i)
      rw [sub_add_cancel] at h2
      rw [Subsingleton.elim i 0] at *
      rw [abs_neg]
      linarith⟩
  have H := DP5.decay_problem N
  generalize DP5.decayBuilder N = b at H
  obtain ⟨s0, hb⟩ : ∃ s0 : DP5.St X 1 Unit, b.build DP5.alg = .ok s0 := ⟨_, rfl⟩
  obtain ⟨s, hs⟩ : ∃ s, Steps DP5.alg none k s0 s := by
    induction k with
    | zero => exact ⟨s0, .zero _⟩
    | succ k ih =>
      obtain ⟨s, hs⟩ := ih
      obtain ⟨o, s', h1⟩ := C13_step_returns_dp5 H DP5.decay_sane (by norm_num [DP5.decayEnv, DP5.defaultEnv])
        (by norm_num [DP5.decayEnv, DP5.defaultEnv]) hb hs fun t u _ _ => hlb t u
      exact ⟨s', .succ hs h1⟩
  obtain ⟨l, e1, e2, e3, -⟩ := C68_dtmax_dp5 (y := fun t _ => Real.exp (-t)) (m := 0.01) (h := 0.0101) H DP5.decay_sane zero_le_one
    DP5.decay_bounded (by norm_num) DP5.decay_local hb hs rfl (by rw [max_eq_left (by norm_num)]; norm_num) (by norm_num)
    (by norm_num) (by norm_num) DP5.decay_small
  refine ⟨s0, s, hb, hs, l, e1, e2, fun p hp => ⟨(e3 p hp).1, ((e3 p hp).2 0).trans ?_⟩⟩
  have h1 : Real.exp (4 * 1 * (DP5.decayEnv.tf - 0)) = Real.exp 1 ^ 4 := by
    rw [← Real.exp_nat_mul]; norm_num [DP5.decayEnv, DP5.defaultEnv]
  have h2 : Real.exp 1 ^ 4 ≤ 3 ^ 4 := pow_le_pow_left₀ (Real.exp_pos _).le (Real.exp_one_lt_d9.le.trans (by norm_num)) 4
  rw [h1, show DP5.decayEnv.tf = 1 from rfl]
  linarith

end
end Cyphus
