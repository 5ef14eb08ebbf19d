import Mathlib.Analysis.Calculus.ContDiff.Deriv
import Mathlib.Analysis.Calculus.ContDiff.RCLike
import Mathlib.Analysis.Calculus.IteratedDeriv.Defs
import Mathlib.Analysis.Calculus.Deriv.Pow
import Mathlib.Analysis.Calculus.MeanValue
import Mathlib.Topology.Algebra.MetricSpace.Lipschitz
import Mathlib.Tactic.Module
/-!
# Orders of smallness, uniformly on an interval

Functions of `(t, h)` are compared with powers of `h`, as `h → 0` and uniformly for `[t, t + h]` inside of `[a, b]`.
-/

namespace Cyphus.Conv
open Asymptotics Filter Topology Set
set_option autoImplicit false
set_option linter.unusedSectionVars false

variable {E G : Type*} [NormedAddCommGroup E] [NormedSpace ℝ E] [NormedAddCommGroup G] [NormedSpace ℝ G]

/-- Small steps inside of `[a, b]`. -/
def small (a b : ℝ) : Filter (ℝ × ℝ) := 𝓟 {p | a ≤ p.1 ∧ 0 ≤ p.2 ∧ p.1 + p.2 ≤ b} ⊓ comap Prod.snd (𝓝 0)

variable {a b : ℝ}

/-- `F` is of order `k` in the step size. -/
def Ord (a b : ℝ) (k : ℕ) (F : ℝ × ℝ → E) : Prop := F =O[small a b] fun p => p.2 ^ k

theorem eventually_small {P : ℝ × ℝ → Prop} : (∀ᶠ p in small a b, P p) ↔
    ∃ h0 > 0, ∀ t h, a ≤ t → 0 ≤ h → t + h ≤ b → h ≤ h0 → P (t, h) := by
  unfold small
  rw [inf_comm, eventually_inf_principal, eventually_comap, Metric.eventually_nhds_iff]
  constructor
  · rintro ⟨ε, hε, H⟩
    refine ⟨ε / 2, by positivity, fun t h h1 h2 h3 h4 => H (y := h) ?_ (t, h) rfl ⟨h1, h2, h3⟩⟩
    rw [Real.dist_0_eq_abs, abs_of_nonneg h2]; linarith
  · rintro ⟨h0, hp, H⟩
    refine ⟨h0, hp, fun y hy p hpy hS => ?_⟩
    obtain ⟨t, h⟩ := p
    simp only at hpy
    subst hpy
    rw [Real.dist_0_eq_abs] at hy
    exact H t h hS.1 hS.2.1 hS.2.2 ((le_abs_self _).trans hy.le)

theorem mem_small : ∀ᶠ p in small a b, a ≤ p.1 ∧ 0 ≤ p.2 ∧ p.1 + p.2 ≤ b :=
  eventually_small.2 ⟨1, one_pos, fun _ _ h1 h2 h3 _ => ⟨h1, h2, h3⟩⟩

theorem Ord.bound {k : ℕ} {F : ℝ × ℝ → E} (h : Ord a b k F) :
    ∃ C > 0, ∃ h0 > 0, ∀ t h, a ≤ t → 0 ≤ h → t + h ≤ b → h ≤ h0 → ‖F (t, h)‖ ≤ C * h ^ k := by
  obtain ⟨C, hC, H⟩ := h.exists_pos
  obtain ⟨h0, hp, H⟩ := eventually_small.1 H.bound
  refine ⟨C, hC, h0, hp, fun t h h1 h2 h3 h4 => ?_⟩
  have := H t h h1 h2 h3 h4
  rwa [Real.norm_of_nonneg (pow_nonneg h2 k)] at this

theorem Ord.of_bound {k : ℕ} {F : ℝ × ℝ → E} (C : ℝ)
    (H : ∀ t h, a ≤ t → 0 ≤ h → t + h ≤ b → ‖F (t, h)‖ ≤ C * h ^ k) : Ord a b k F := by
  refine IsBigO.of_bound C (eventually_small.2 ⟨1, one_pos, fun t h h1 h2 h3 _ => ?_⟩)
  rw [Real.norm_of_nonneg (pow_nonneg h2 k)]
  exact H t h h1 h2 h3

variable {k m : ℕ} {F F' : ℝ × ℝ → E}

theorem Ord.add (h : Ord a b k F) (h' : Ord a b k F') : Ord a b k fun p => F p + F' p := IsBigO.add h h'
theorem Ord.sub (h : Ord a b k F) (h' : Ord a b k F') : Ord a b k fun p => F p - F' p := IsBigO.sub h h'
theorem Ord.neg (h : Ord a b k F) : Ord a b k fun p => -F p := IsBigO.neg_left h
theorem Ord.smul (c : ℝ) (h : Ord a b k F) : Ord a b k fun p => c • F p :=
  IsBigO.const_smul_left h c
theorem Ord.congr (h : Ord a b k F) (e : ∀ᶠ p in small a b, F p = F' p) : Ord a b k F' :=
  IsBigO.congr' h e (Eventually.of_forall fun _ => rfl)
theorem Ord.hpow (m : ℕ) (h : Ord a b k F) : Ord a b (m + k) fun p => p.2 ^ m • F p := by
  have := (isBigO_refl (fun p : ℝ × ℝ => p.2 ^ m) (small a b)).smul h
  simpa [Ord, pow_add] using this
theorem Ord.h1 (h : Ord a b k F) : Ord a b (k + 1) fun p => p.2 • F p := by
  have := h.hpow 1
  rw [add_comm] at this
  simpa using this
theorem Ord.mono (hm : m ≤ k) (h : Ord a b k F) : Ord a b m F := by
  refine IsBigO.trans h (IsBigO.of_bound 1 (eventually_small.2 ⟨1, one_pos, fun t s _ h2 _ h4 => ?_⟩))
  rw [Real.norm_of_nonneg (pow_nonneg h2 _), Real.norm_of_nonneg (pow_nonneg h2 _), one_mul]
  exact pow_le_pow_of_le_one h2 h4 hm
theorem Ord.clm {A : ℝ × ℝ → E →L[ℝ] G} (hA : Ord a b m A) (h : Ord a b k F) :
    Ord a b (m + k) fun p => A p (F p) := by
  obtain ⟨C, hC, H⟩ := IsBigO.exists_pos hA
  obtain ⟨D, hD, H'⟩ := IsBigO.exists_pos h
  refine IsBigO.of_bound (C * D) ?_
  filter_upwards [H.bound, H'.bound] with p h1 h2
  calc ‖A p (F p)‖ ≤ ‖A p‖ * ‖F p‖ := (A p).le_opNorm _
    _ ≤ (C * ‖p.2 ^ m‖) * (D * ‖p.2 ^ k‖) := mul_le_mul h1 h2 (norm_nonneg _) (by positivity)
    _ = C * D * ‖p.2 ^ (m + k)‖ := by rw [pow_add, norm_mul]; ring

/-- What is of positive order tends to zero. -/
theorem Ord.tendsto (hk : k ≠ 0) (h : Ord a b k F) : Tendsto F (small a b) (𝓝 0) := by
  refine IsBigO.trans_tendsto h ?_
  have : Tendsto (fun p : ℝ × ℝ => p.2) (small a b) (𝓝 0) := tendsto_comap.mono_left inf_le_right
  simpa [hk] using this.pow k

/-- Continuous functions of `t` are of order zero. -/
theorem Ord.cont {g : ℝ → E} (hg : ContinuousOn g (Icc a b)) : Ord a b 0 fun p => g p.1 := by
  obtain ⟨C, hC⟩ := isCompact_Icc.exists_bound_of_continuousOn hg
  refine Ord.of_bound C fun t h h1 h2 h3 => ?_
  simpa using hC t ⟨h1, by linarith⟩

/-- Taylor's formula, uniformly on the interval: `g k` are the derivatives of `g 0`. -/
theorem taylor_bound {g : ℕ → ℝ → E} {m : ℕ} (hd : ∀ k < m, ∀ t ∈ Icc a b, HasDerivWithinAt (g k) (g (k + 1) t) (Icc a b) t)
    (hc : ContinuousOn (g m) (Icc a b)) :
    ∃ C, ∀ t s, a ≤ t → 0 ≤ s → t + s ≤ b →
      ‖g 0 (t + s) - ∑ j ∈ Finset.range m, (s ^ j / (j.factorial : ℝ)) • g j t‖ ≤ C * s ^ m := by
  induction m generalizing g with
  | zero =>
    obtain ⟨C, hC⟩ := isCompact_Icc.exists_bound_of_continuousOn hc
    refine ⟨C, fun t s h1 h2 h3 => ?_⟩
    simpa using hC (t + s) ⟨by linarith, h3⟩
  | succ m ih =>
    obtain ⟨C, hC⟩ := ih (g := fun k => g (k + 1)) (fun k hk => hd (k + 1) (by omega)) hc
    refine ⟨C, fun t S h1 h2 h3 => ?_⟩
    have hC0 : 0 ≤ C * S ^ m := (norm_nonneg _).trans (hC t S h1 h2 h3)
    have hder : ∀ s ∈ Icc 0 S, HasDerivWithinAt
        (fun s => g 0 (t + s) - ∑ j ∈ Finset.range (m + 1), (s ^ j / (j.factorial : ℝ)) • g j t)
        (g 1 (t + s) - ∑ j ∈ Finset.range m, (s ^ j / (j.factorial : ℝ)) • g (j + 1) t) (Icc 0 S) s := by
      intro s hs
      refine HasDerivWithinAt.sub ?_ ?_
      · have h4 := hd 0 (by omega) (t + s) ⟨by linarith [hs.1], by linarith [hs.2]⟩
        have h5 : HasDerivWithinAt (fun s => t + s) 1 (Icc 0 S) s := ((hasDerivAt_id s).const_add t).hasDerivWithinAt
        have := h4.scomp (h := fun s => t + s) s h5 (fun x hx => ⟨by linarith [hx.1], by linarith [hx.2]⟩)
        rw [one_smul] at this
        exact this
      · simp only [Finset.sum_range_succ', pow_zero]
        refine HasDerivWithinAt.congr_deriv ((HasDerivWithinAt.fun_sum (A' := fun j => (s ^ j / (j.factorial : ℝ)) • g (j + 1) t)
          (fun j _ => ?_)).add_const _) rfl
        refine HasDerivWithinAt.smul_const (HasDerivAt.hasDerivWithinAt ?_) _
        have := (hasDerivAt_pow (j + 1) s).div_const ((j + 1).factorial : ℝ)
        refine this.congr_deriv ?_
        have hj : (j.factorial : ℝ) ≠ 0 := by positivity
        rw [Nat.factorial_succ]
        push_cast
        field_simp
    have hb : ∀ s ∈ Ico 0 S, ‖g 1 (t + s) - ∑ j ∈ Finset.range m, (s ^ j / (j.factorial : ℝ)) • g (j + 1) t‖ ≤ C * S ^ m := by
      intro s hs
      refine (hC t s h1 hs.1 (by linarith [hs.2])).trans ?_
      rcases le_or_gt 0 C with hC1 | hC1
      · exact mul_le_mul_of_nonneg_left (pow_le_pow_left₀ hs.1 hs.2.le m) hC1
      · have h6 := (norm_nonneg _).trans (hC t s h1 hs.1 (by linarith [hs.2]))
        have h7 : C * s ^ m ≤ 0 := mul_nonpos_of_nonpos_of_nonneg hC1.le (pow_nonneg hs.1 m)
        linarith
    have := norm_image_sub_le_of_norm_deriv_le_segment' hder hb S ⟨h2, le_rfl⟩
    simp only [add_zero, sub_zero] at this
    have e0 : g 0 t - ∑ j ∈ Finset.range (m + 1), ((0:ℝ) ^ j / (j.factorial : ℝ)) • g j t = 0 := by
      rw [Finset.sum_range_succ', Finset.sum_eq_zero (fun j _ => by simp)]; simp
    rw [e0, sub_zero] at this
    calc _ ≤ _ := this
      _ = C * S ^ (m + 1) := by ring

/-- Taylor's formula at `t + c h`. -/
theorem taylor {g : ℕ → ℝ → E} {m : ℕ} (hd : ∀ k < m, ∀ t ∈ Icc a b, HasDerivWithinAt (g k) (g (k + 1) t) (Icc a b) t)
    (hc : ContinuousOn (g m) (Icc a b)) {c : ℝ} (hc0 : 0 ≤ c) (hc1 : c ≤ 1) :
    Ord a b m fun p => g 0 (p.1 + c * p.2) - ∑ j ∈ Finset.range m, ((c * p.2) ^ j / (j.factorial : ℝ)) • g j p.1 := by
  obtain ⟨C, hC⟩ := taylor_bound hd hc
  refine Ord.of_bound (C * c ^ m) fun t h h1 h2 h3 => ?_
  refine (hC t (c * h) h1 (mul_nonneg hc0 h2) ?_).trans_eq (by rw [mul_pow]; ring)
  have := mul_le_of_le_one_left h2 hc1
  linarith

end Cyphus.Conv
