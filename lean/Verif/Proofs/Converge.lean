import Verif.Proofs.Order5
import Mathlib.Analysis.Calculus.ContDiff.RCLike
import Mathlib.Analysis.Calculus.IteratedDeriv.Defs
import Mathlib.Analysis.Calculus.MeanValue
import Mathlib.Topology.MetricSpace.ProperSpace
import Mathlib.Analysis.SpecialFunctions.Exp
/-!
# Convergence of the Dormand-Prince method
-/

namespace Cyphus.Conv
open Asymptotics Filter Topology Set Metric
set_option autoImplicit false
set_option linter.unusedSectionVars false

variable {E : Type*} [NormedAddCommGroup E] [NormedSpace ℝ E]

/-! ## The step as a function of the state -/

section stable
variable {w1 w2 w3 w4 w5 : E} {B : ℝ} (c1 c2 c3 c4 c5 : ℝ)

theorem comb1 (h1 : ‖w1‖ ≤ B) : ‖c1 • w1‖ ≤ |c1| * B := by
  rw [norm_smul, Real.norm_eq_abs]
  exact mul_le_mul_of_nonneg_left h1 (abs_nonneg _)

theorem comb2 (h1 : ‖w1‖ ≤ B) (h2 : ‖w2‖ ≤ B) : ‖c1 • w1 + c2 • w2‖ ≤ (|c1| + |c2|) * B := by
  rw [add_mul]
  exact norm_add_le_of_le (comb1 _ h1) (comb1 _ h2)

theorem comb3 (h1 : ‖w1‖ ≤ B) (h2 : ‖w2‖ ≤ B) (h3 : ‖w3‖ ≤ B) :
    ‖c1 • w1 + c2 • w2 + c3 • w3‖ ≤ (|c1| + |c2| + |c3|) * B := by
  rw [add_mul]
  exact norm_add_le_of_le (comb2 _ _ h1 h2) (comb1 _ h3)

theorem comb4 (h1 : ‖w1‖ ≤ B) (h2 : ‖w2‖ ≤ B) (h3 : ‖w3‖ ≤ B) (h4 : ‖w4‖ ≤ B) :
    ‖c1 • w1 + c2 • w2 + c3 • w3 + c4 • w4‖ ≤ (|c1| + |c2| + |c3| + |c4|) * B := by
  rw [add_mul]
  exact norm_add_le_of_le (comb3 _ _ _ h1 h2 h3) (comb1 _ h4)

theorem comb5 (h1 : ‖w1‖ ≤ B) (h2 : ‖w2‖ ≤ B) (h3 : ‖w3‖ ≤ B) (h4 : ‖w4‖ ≤ B) (h5 : ‖w5‖ ≤ B) :
    ‖c1 • w1 + c2 • w2 + c3 • w3 + c4 • w4 + c5 • w5‖ ≤ (|c1| + |c2| + |c3| + |c4| + |c5|) * B := by
  rw [add_mul]
  exact norm_add_le_of_le (comb4 _ _ _ _ h1 h2 h3 h4) (comb1 _ h5)

theorem shift {u w : E} {h c N r : ℝ} (h0 : 0 ≤ h) (hu : ‖u‖ ≤ N) (hw : ‖w‖ ≤ c * B) (hB : 0 ≤ B) (hc : c ≤ 25)
    (hr : 25 * B * h ≤ r) : ‖u + h • w‖ ≤ N + r := by
  refine norm_add_le_of_le hu ?_
  rw [norm_smul, Real.norm_eq_abs, abs_of_nonneg h0]
  have : ‖w‖ ≤ 25 * B := hw.trans (mul_le_mul_of_nonneg_right hc hB)
  calc h * ‖w‖ ≤ h * (25 * B) := mul_le_mul_of_nonneg_left this h0
    _ ≤ r := by linarith

end stable

/-- `f` is bounded and Lipschitz on the ball of radius `R`, for times in `[a, b]`. -/
structure Bounds (f : ℝ → E → E) (a b R M L : ℝ) : Prop where
  M0 : 0 ≤ M
  L0 : 0 ≤ L
  bd : ∀ t ∈ Icc a b, ∀ u, ‖u‖ ≤ R → ‖f t u‖ ≤ M
  lip : ∀ t ∈ Icc a b, ∀ u v, ‖u‖ ≤ R → ‖v‖ ≤ R → ‖f t u - f t v‖ ≤ L * ‖u - v‖

variable {f : ℝ → E → E} {y : ℝ → E} {a b R M L : ℝ}

section
variable {t h : ℝ} {u : E} (H : Bounds f a b R M L) (hu : ‖u‖ ≤ R - 1) (ht : a ≤ t) (h0 : 0 ≤ h) (hb : t + h ≤ b)
  (hM : 25 * M * h ≤ 1)
include H hu ht h0 hb hM

theorem mem_Icc {c : ℝ} (hc0 : 0 ≤ c) (hc1 : c ≤ 1) : t + c * h ∈ Icc a b := by
  have h1 := mul_nonneg hc0 h0
  have h2 := mul_le_of_le_one_left h0 hc1
  exact ⟨by linarith, by linarith⟩

theorem bk1 : ‖k1 f t u‖ ≤ M := H.bd _ ⟨ht, by linarith⟩ _ (by linarith)
theorem bs2 : ‖s2 f t u h‖ ≤ R := by
  have := shift h0 hu (comb1 (1/5) (bk1 H hu ht h0 hb hM)) H.M0 (by norm_num) hM
  simpa [s2] using this
theorem bk2 : ‖k2 f t u h‖ ≤ M :=
  H.bd _ (mem_Icc H hu ht h0 hb hM (by norm_num) (by norm_num)) _ (bs2 H hu ht h0 hb hM)
theorem bs3 : ‖s3 f t u h‖ ≤ R := by
  have := shift h0 hu (comb2 (3/40) (9/40) (bk1 H hu ht h0 hb hM) (bk2 H hu ht h0 hb hM)) H.M0
    (by norm_num [abs_of_neg, abs_of_pos]) hM
  simpa [s3] using this
theorem bk3 : ‖k3 f t u h‖ ≤ M :=
  H.bd _ (mem_Icc H hu ht h0 hb hM (by norm_num) (by norm_num)) _ (bs3 H hu ht h0 hb hM)
theorem bs4 : ‖s4 f t u h‖ ≤ R := by
  have := shift h0 hu (comb3 (44/45) (-56/15) (32/9) (bk1 H hu ht h0 hb hM) (bk2 H hu ht h0 hb hM)
    (bk3 H hu ht h0 hb hM)) H.M0 (by norm_num [abs_of_neg, abs_of_pos]) hM
  simpa only [s4, sub_add_cancel] using this
theorem bk4 : ‖k4 f t u h‖ ≤ M :=
  H.bd _ (mem_Icc H hu ht h0 hb hM (by norm_num) (by norm_num)) _ (bs4 H hu ht h0 hb hM)
theorem bs5 : ‖s5 f t u h‖ ≤ R := by
  have := shift h0 hu (comb4 (19372/6561) (-25360/2187) (64448/6561) (-212/729) (bk1 H hu ht h0 hb hM) (bk2 H hu ht h0 hb hM)
    (bk3 H hu ht h0 hb hM) (bk4 H hu ht h0 hb hM)) H.M0 (by norm_num [abs_of_neg, abs_of_pos]) hM
  simpa only [s5, sub_add_cancel] using this
theorem bk5 : ‖k5 f t u h‖ ≤ M :=
  H.bd _ (mem_Icc H hu ht h0 hb hM (by norm_num) (by norm_num)) _ (bs5 H hu ht h0 hb hM)
theorem bs6 : ‖s6 f t u h‖ ≤ R := by
  have := shift h0 hu (comb5 (9017/3168) (-355/33) (46732/5247) (49/176) (-5103/18656) (bk1 H hu ht h0 hb hM)
    (bk2 H hu ht h0 hb hM) (bk3 H hu ht h0 hb hM) (bk4 H hu ht h0 hb hM) (bk5 H hu ht h0 hb hM)) H.M0
    (by norm_num [abs_of_neg, abs_of_pos]) hM
  simpa only [s6, sub_add_cancel] using this
theorem bk6 : ‖k6 f t u h‖ ≤ M :=
  H.bd _ (mem_Icc H hu ht h0 hb hM (by norm_num) (by norm_num)) _ (bs6 H hu ht h0 hb hM)
theorem bstep : ‖step f t u h‖ ≤ R := by
  have := shift h0 hu (comb5 (35/384) (500/1113) (125/192) (-2187/6784) (11/84) (bk1 H hu ht h0 hb hM)
    (bk3 H hu ht h0 hb hM) (bk4 H hu ht h0 hb hM) (bk5 H hu ht h0 hb hM) (bk6 H hu ht h0 hb hM)) H.M0
    (by norm_num [abs_of_neg, abs_of_pos]) hM
  simpa only [step, sub_add_cancel] using this

end

/-- How the stages and the increment of a step change with the state. -/
theorem step_lips {t h : ℝ} {u v : E} (H : Bounds f a b R M L) (hu : ‖u‖ ≤ R - 1) (hv : ‖v‖ ≤ R - 1) (ht : a ≤ t) (h0 : 0 ≤ h)
    (hb : t + h ≤ b) (hM : 25 * M * h ≤ 1) (hL : 50 * L * h ≤ 1) :
    (‖k1 f t u - k1 f t v‖ ≤ 2 * L * ‖u - v‖ ∧ ‖k3 f t u h - k3 f t v h‖ ≤ 2 * L * ‖u - v‖ ∧
      ‖k4 f t u h - k4 f t v h‖ ≤ 2 * L * ‖u - v‖ ∧ ‖k5 f t u h - k5 f t v h‖ ≤ 2 * L * ‖u - v‖ ∧
      ‖k6 f t u h - k6 f t v h‖ ≤ 2 * L * ‖u - v‖ ∧ ‖k7 f t u h - k7 f t v h‖ ≤ 2 * L * ‖u - v‖) ∧
    ‖(step f t u h - step f t v h) - (u - v)‖ ≤ 4 * L * h * ‖u - v‖ := by
  set Δ := ‖u - v‖ with hΔ
  have hΔ0 : 0 ≤ Δ := norm_nonneg _
  have hB : 0 ≤ 2 * L * Δ := by have := H.L0; positivity
  have hr : 25 * (2 * L * Δ) * h ≤ Δ := by nlinarith
  have lip : ∀ {c : ℝ} {x z : E}, 0 ≤ c → c ≤ 1 → ‖x‖ ≤ R → ‖z‖ ≤ R → ‖x - z‖ ≤ Δ + Δ →
      ‖f (t + c * h) x - f (t + c * h) z‖ ≤ 2 * L * Δ := by
    intro c x z hc0 hc1 hx hz hxz
    have h1 := H.lip _ (mem_Icc H hu ht h0 hb hM hc0 hc1) x z hx hz
    have h2 := mul_le_mul_of_nonneg_left hxz H.L0
    linarith
  have e1 : ‖k1 f t u - k1 f t v‖ ≤ 2 * L * Δ := by
    have h1 := H.lip t ⟨ht, by linarith⟩ u v (by linarith) (by linarith)
    have := H.L0
    have : 0 ≤ L * Δ := by positivity
    rw [k1, k1]; linarith
  have e2 : ‖k2 f t u h - k2 f t v h‖ ≤ 2 * L * Δ := by
    refine lip (by norm_num) (by norm_num) (bs2 H hu ht h0 hb hM) (bs2 H hv ht h0 hb hM) ?_
    have := shift h0 hΔ.ge (comb1 (1/5) e1) hB (by norm_num) hr
    convert this using 2
    simp only [s2]; module
  have e3 : ‖k3 f t u h - k3 f t v h‖ ≤ 2 * L * Δ := by
    refine lip (by norm_num) (by norm_num) (bs3 H hu ht h0 hb hM) (bs3 H hv ht h0 hb hM) ?_
    have := shift h0 hΔ.ge (comb2 (3/40) (9/40) e1 e2) hB (by norm_num [abs_of_neg, abs_of_pos]) hr
    convert this using 2
    simp only [s3]; module
  have e4 : ‖k4 f t u h - k4 f t v h‖ ≤ 2 * L * Δ := by
    refine lip (by norm_num) (by norm_num) (bs4 H hu ht h0 hb hM) (bs4 H hv ht h0 hb hM) ?_
    have := shift h0 hΔ.ge (comb3 (44/45) (-56/15) (32/9) e1 e2 e3) hB (by norm_num [abs_of_neg, abs_of_pos]) hr
    convert this using 2
    simp only [s4]; module
  have e5 : ‖k5 f t u h - k5 f t v h‖ ≤ 2 * L * Δ := by
    refine lip (by norm_num) (by norm_num) (bs5 H hu ht h0 hb hM) (bs5 H hv ht h0 hb hM) ?_
    have := shift h0 hΔ.ge (comb4 (19372/6561) (-25360/2187) (64448/6561) (-212/729) e1 e2 e3 e4) hB
      (by norm_num [abs_of_neg, abs_of_pos]) hr
    convert this using 2
    simp only [s5]; module
  have e6 : ‖k6 f t u h - k6 f t v h‖ ≤ 2 * L * Δ := by
    refine lip (by norm_num) (by norm_num) (bs6 H hu ht h0 hb hM) (bs6 H hv ht h0 hb hM) ?_
    have := shift h0 hΔ.ge (comb5 (9017/3168) (-355/33) (46732/5247) (49/176) (-5103/18656) e1 e2 e3 e4 e5) hB
      (by norm_num [abs_of_neg, abs_of_pos]) hr
    convert this using 2
    simp only [s6]; module
  have e := comb5 (35/384) (500/1113) (125/192) (-2187/6784) (11/84) e1 e3 e4 e5 e6
  have e' : step f t u h - step f t v h = (u - v) + h • ((35/384 : ℝ) • (k1 f t u - k1 f t v)
      + (500/1113 : ℝ) • (k3 f t u h - k3 f t v h) + (125/192 : ℝ) • (k4 f t u h - k4 f t v h)
      + (-2187/6784 : ℝ) • (k5 f t u h - k5 f t v h) + (11/84 : ℝ) • (k6 f t u h - k6 f t v h)) := by
    simp only [step]; module
  have eh : ‖(step f t u h - step f t v h) - (u - v)‖ ≤ 4 * L * h * Δ := by
    rw [e', add_sub_cancel_left, norm_smul, Real.norm_eq_abs, abs_of_nonneg h0]
    have e2 : (|(35/384 : ℝ)| + |(500/1113 : ℝ)| + |(125/192 : ℝ)| + |(-2187/6784 : ℝ)| + |(11/84 : ℝ)|) ≤ 2 := by
      norm_num [abs_of_neg, abs_of_pos]
    exact (mul_le_mul_of_nonneg_left (e.trans (mul_le_mul_of_nonneg_right e2 hB)) h0).trans_eq (by ring)
  have e7 : ‖k7 f t u h - k7 f t v h‖ ≤ 2 * L * Δ := by
    refine lip (by norm_num) (by norm_num) (bstep H hu ht h0 hb hM) (bstep H hv ht h0 hb hM) ?_
    have := norm_add_le_of_le eh hΔ.ge
    rw [sub_add_cancel] at this
    nlinarith
  exact ⟨⟨e1, e3, e4, e5, e6, e7⟩, eh⟩

/-- One step changes a difference by a factor close to one. -/
theorem step_lip {t h : ℝ} {u v : E} (H : Bounds f a b R M L) (hu : ‖u‖ ≤ R - 1) (hv : ‖v‖ ≤ R - 1) (ht : a ≤ t) (h0 : 0 ≤ h)
    (hb : t + h ≤ b) (hM : 25 * M * h ≤ 1) (hL : 50 * L * h ≤ 1) :
    ‖step f t u h - step f t v h‖ ≤ (1 + 4 * L * h) * ‖u - v‖ := by
  have := norm_add_le_of_le (step_lips H hu hv ht h0 hb hM hL).2 (le_refl ‖u - v‖)
  rw [sub_add_cancel] at this
  linarith

/-! ## Summing up the local errors -/

/-- **The global error**, with explicit constants. -/
theorem Bounds.global (H : Bounds f a b R M L) (hy : ∀ t ∈ Icc a b, ‖y t‖ ≤ R - 2) {C h1 : ℝ} (hC : 0 ≤ C)
    (hb : ∀ t h, a ≤ t → 0 ≤ h → t + h ≤ b → h ≤ h1 → ‖step f t (y t) h - y (t + h)‖ ≤ C * h ^ 6)
    {l : List (ℝ × E)} {h : ℝ} (hp : 0 ≤ h) (g1 : h ≤ h1) (g3 : 25 * M * h ≤ 1) (g4 : 50 * L * h ≤ 1)
    (hD1 : C * (b - a) * Real.exp (4 * L * (b - a)) * h ^ 5 ≤ 1) (hd : l.head? = some (a, y a))
    (hch : l.IsChain (fun p q => p.1 ≤ q.1 ∧ q.1 - p.1 ≤ h ∧ q.2 = step f p.1 p.2 (q.1 - p.1))) (hlb : ∀ p ∈ l, p.1 ≤ b) :
    ∀ p ∈ l, ‖p.2 - y p.1‖ ≤ C * (b - a) * Real.exp (4 * L * (b - a)) * h ^ 5 := by
  have hM := H.M0
  have hL := H.L0
  by_cases hab : a ≤ b
  swap
  · intro p hp
    rcases l with _ | ⟨x, l⟩
    · simp at hp
    · simp at hd
      have := hlb x (by simp)
      rw [hd] at this
      exact absurd this hab
  set D := C * (b - a) * Real.exp (4 * L * (b - a)) with hD
  have hba : 0 ≤ b - a := by linarith
  have hD0 : 0 ≤ D := by positivity
  let W : ℝ → ℝ := fun t => C * h ^ 5 * (t - a) * Real.exp (4 * L * (t - a))
  have hW : ∀ t, a ≤ t → t ≤ b → W t ≤ D * h ^ 5 := by
    intro t h1 h2
    have : (t - a) * Real.exp (4 * L * (t - a)) ≤ (b - a) * Real.exp (4 * L * (b - a)) :=
      mul_le_mul (by linarith) (Real.exp_le_exp.2 (mul_le_mul_of_nonneg_left (by linarith) (by positivity)))
        (Real.exp_pos _).le hba
    calc W t = (C * h ^ 5) * ((t - a) * Real.exp (4 * L * (t - a))) := by simp only [W]; ring
      _ ≤ (C * h ^ 5) * ((b - a) * Real.exp (4 * L * (b - a))) := mul_le_mul_of_nonneg_left this (by positivity)
      _ = D * h ^ 5 := by rw [hD]; ring
  -- along the list
  have key : ∀ (l : List (ℝ × E)) (x : ℝ × E), a ≤ x.1 → ‖x.2 - y x.1‖ ≤ W x.1 →
      (x :: l).IsChain (fun p q => p.1 ≤ q.1 ∧ q.1 - p.1 ≤ h ∧ q.2 = step f p.1 p.2 (q.1 - p.1)) →
      (∀ p ∈ x :: l, p.1 ≤ b) → ∀ p ∈ x :: l, a ≤ p.1 ∧ ‖p.2 - y p.1‖ ≤ W p.1 := by
    intro l
    induction l with
    | nil =>
      intro x hx hW _ _ p hp
      rw [List.mem_singleton] at hp
      exact hp ▸ ⟨hx, hW⟩
    | cons q l ih =>
      intro x hx hWx hch hlb p hp
      rcases List.mem_cons.1 hp with rfl | hp
      · exact ⟨hx, hWx⟩
      rw [List.isChain_cons_cons] at hch
      obtain ⟨⟨i1, i2, i3⟩, hch⟩ := hch
      have hxb := hlb x (by simp)
      have hqb := hlb q (by simp)
      refine ih q (hx.trans i1) ?_ hch (fun p hp => hlb p (List.mem_cons_of_mem _ hp)) p hp
      set τ := q.1 - x.1 with hτ
      have hτ0 : 0 ≤ τ := by linarith
      have hq : q.1 = x.1 + τ := by rw [hτ]; ring
      have hy1 := hy x.1 ⟨hx, hxb⟩
      have hx2 : ‖x.2‖ ≤ R - 1 := by
        have h1 := norm_add_le_of_le (hWx.trans ((hW _ hx hxb).trans hD1)) hy1
        rw [sub_add_cancel] at h1
        linarith
      have j1 := step_lip H hx2 (hy1.trans (by linarith)) hx hτ0 (by linarith)
        (by nlinarith [mul_le_mul_of_nonneg_left i2 hM]) (by nlinarith [mul_le_mul_of_nonneg_left i2 hL])
      have j2 := hb x.1 τ hx hτ0 (by linarith) (i2.trans g1)
      have j3 : ‖q.2 - y q.1‖ ≤ (1 + 4 * L * τ) * ‖x.2 - y x.1‖ + C * τ ^ 6 := by
        rw [i3, hq]
        have := norm_add_le_of_le j1 j2
        rwa [sub_add_sub_cancel] at this
      have j4 : (1 + 4 * L * τ) * ‖x.2 - y x.1‖ ≤ Real.exp (4 * L * τ) * W x.1 := by
        refine mul_le_mul ?_ hWx (norm_nonneg _) (Real.exp_pos _).le
        linarith [Real.add_one_le_exp (4 * L * τ)]
      have j5 : C * τ ^ 6 ≤ C * h ^ 5 * τ * Real.exp (4 * L * (q.1 - a)) := by
        have e1 : (1:ℝ) ≤ Real.exp (4 * L * (q.1 - a)) := Real.one_le_exp (by
          have : 0 ≤ q.1 - a := by linarith
          positivity)
        have e2 : τ ^ 5 ≤ h ^ 5 := pow_le_pow_left₀ hτ0 i2 5
        calc C * τ ^ 6 = C * τ ^ 5 * τ * 1 := by ring
          _ ≤ C * h ^ 5 * τ * Real.exp (4 * L * (q.1 - a)) := by gcongr
      have j6 : Real.exp (4 * L * τ) * W x.1 = C * h ^ 5 * (x.1 - a) * Real.exp (4 * L * (q.1 - a)) := by
        have : 4 * L * (q.1 - a) = 4 * L * τ + 4 * L * (x.1 - a) := by rw [hq]; ring
        rw [this, Real.exp_add]; simp only [W]; ring
      have j7 : W q.1 = C * h ^ 5 * (x.1 - a) * Real.exp (4 * L * (q.1 - a)) + C * h ^ 5 * τ * Real.exp (4 * L * (q.1 - a)) := by
        simp only [W]; rw [hτ]; ring
      linarith
  rcases l with _ | ⟨x, l⟩
  · simp
  · simp only [List.head?_cons, Option.some.injEq] at hd
    subst hd
    intro p hp
    obtain ⟨k1, k2⟩ := key l (a, y a) le_rfl (by simp [W]) hch hlb p hp
    exact k2.trans (hW _ k1 (hlb p hp))

/-- **The global error.** -/
theorem Bounds.converges (H : Bounds f a b R M L) (hy : ∀ t ∈ Icc a b, ‖y t‖ ≤ R - 2)
    (hloc : Ord a b 6 fun p => step f p.1 (y p.1) p.2 - y (p.1 + p.2)) :
    ∃ C h0 : ℝ, 0 < h0 ∧ ∀ (l : List (ℝ × E)) (h : ℝ), 0 ≤ h → h ≤ h0 → l.head? = some (a, y a) →
      l.IsChain (fun p q => p.1 ≤ q.1 ∧ q.1 - p.1 ≤ h ∧ q.2 = step f p.1 p.2 (q.1 - p.1)) → (∀ p ∈ l, p.1 ≤ b) →
      ∀ p ∈ l, ‖p.2 - y p.1‖ ≤ C * h ^ 5 := by
  obtain ⟨C, hC, h1, hh1, hb⟩ := hloc.bound
  have hM := H.M0
  have hL := H.L0
  set D := C * (b - a) * Real.exp (4 * L * (b - a)) with hD
  let h0 := min (min h1 1) (min (1 / (25 * M + 1)) (min (1 / (50 * L + 1)) (1 / (|D| + 1))))
  have hh0 : 0 < h0 := by
    refine lt_min (lt_min hh1 one_pos) (lt_min ?_ (lt_min ?_ ?_)) <;> positivity
  refine ⟨D, h0, hh0, ?_⟩
  intro l h hp hle hd hch hlb
  have g1 : h ≤ h1 := hle.trans ((min_le_left _ _).trans (min_le_left _ _))
  have g2 : h ≤ 1 := hle.trans ((min_le_left _ _).trans (min_le_right _ _))
  have g3 : h ≤ 1 / (25 * M + 1) := hle.trans ((min_le_right _ _).trans (min_le_left _ _))
  have g4 : h ≤ 1 / (50 * L + 1) := hle.trans ((min_le_right _ _).trans ((min_le_right _ _).trans (min_le_left _ _)))
  have g5 : h ≤ 1 / (|D| + 1) := hle.trans ((min_le_right _ _).trans ((min_le_right _ _).trans (min_le_right _ _)))
  rw [le_div_iff₀ (by positivity)] at g3 g4 g5
  have h5 : h ^ 5 ≤ h := by
    calc h ^ 5 = h * h ^ 4 := by ring
      _ ≤ h * 1 := mul_le_mul_of_nonneg_left (pow_le_one₀ hp g2) hp
      _ = h := mul_one h
  have hD1 : D * h ^ 5 ≤ 1 := by
    have := mul_le_mul_of_nonneg_right (le_abs_self D) (pow_nonneg hp 5)
    nlinarith [mul_le_mul_of_nonneg_left h5 (abs_nonneg D)]
  exact H.global hy hC.le hb hp g1 (by linarith) (by linarith) hD1 hd hch hlb

/-! ## Smooth problems -/

section smooth
variable [ProperSpace E]

/-- A `C¹` function is Lipschitz on compact sets. -/
theorem lipschitz_compact {X Z : Type*} [NormedAddCommGroup X] [NormedSpace ℝ X] [NormedAddCommGroup Z] [NormedSpace ℝ Z]
    {g : X → Z} (hg : ContDiff ℝ 1 g) {s : Set X} (hs : IsCompact s) : ∃ K, LipschitzOnWith K g s :=
  (hg.locallyLipschitz.locallyLipschitzOn (s := s)).exists_lipschitzOnWith_of_compact hs

/-- A bound and a Lipschitz constant on a ball. -/
theorem exists_bounds (hf : ContDiff ℝ 1 (Function.uncurry f)) (R : ℝ) : ∃ M L, Bounds f a b R M L := by
  have hs : IsCompact (Icc a b ×ˢ closedBall (0 : E) R) := isCompact_Icc.prod (isCompact_closedBall _ _)
  obtain ⟨L, hL⟩ := lipschitz_compact hf hs
  obtain ⟨M, hM⟩ := hs.exists_bound_of_continuousOn hf.continuous.continuousOn
  refine ⟨max M 0, L, le_max_right _ _, L.2, ?_, ?_⟩
  · intro t ht u hu
    exact (hM (t, u) ⟨ht, by simpa using hu⟩).trans (le_max_left _ _)
  · intro t ht u v hu hv
    have := hL.dist_le_mul (t, u) ⟨ht, by simpa using hu⟩ (t, v) ⟨ht, by simpa using hv⟩
    rw [Prod.dist_eq, dist_self, max_eq_right dist_nonneg, dist_eq_norm, dist_eq_norm] at this
    exact this

/-- The derivative by the state. -/
noncomputable def dstate (f : ℝ → E → E) (t : ℝ) (u : E) : E →L[ℝ] E :=
  (fderiv ℝ (Function.uncurry f) (t, u)).comp (ContinuousLinearMap.inr ℝ ℝ E)

theorem hasFDerivAt_dstate (hf : ContDiff ℝ 1 (Function.uncurry f)) (t : ℝ) (u : E) : HasFDerivAt (f t) (dstate f t u) u := by
  have h1 := (hf.differentiable (by norm_num) (t, u)).hasFDerivAt
  exact h1.comp u (hasFDerivAt_prodMk_right t u)

theorem contDiff_dstate {m : ℕ} (hf : ContDiff ℝ (m + 1) (Function.uncurry f)) : ContDiff ℝ m (Function.uncurry (dstate f)) := by
  have h1 : ContDiff ℝ m (fderiv ℝ (Function.uncurry f)) := hf.fderiv_right le_rfl
  exact h1.clm_comp contDiff_const

/-- The error of the linearisation is quadratic. -/
theorem linearise (hf : ContDiff ℝ 2 (Function.uncurry f)) (R : ℝ) : ∃ K, ∀ t ∈ Icc a b, ∀ u e : E, ‖u‖ ≤ R → ‖e‖ ≤ 1 →
    ‖f t (u + e) - f t u - dstate f t u e‖ ≤ K * ‖e‖ ^ 2 := by
  have hs : IsCompact (Icc a b ×ˢ closedBall (0 : E) (R + 1)) := isCompact_Icc.prod (isCompact_closedBall _ _)
  obtain ⟨K, hK⟩ := lipschitz_compact (contDiff_dstate (m := 1) (by exact_mod_cast hf)) hs
  refine ⟨K, fun t ht u e hu he => ?_⟩
  have h1 : ∀ x ∈ closedBall u ‖e‖, HasFDerivWithinAt (f t) (dstate f t x) (closedBall u ‖e‖) x := fun x _ =>
    (hasFDerivAt_dstate (hf.of_le (by norm_num)) t x).hasFDerivWithinAt
  have h2 : ∀ x ∈ closedBall u ‖e‖, ‖dstate f t x - dstate f t u‖ ≤ K * ‖e‖ := by
    intro x hx
    rw [mem_closedBall, dist_eq_norm] at hx
    have h3 : ‖x‖ ≤ R + 1 := by
      have := norm_add_le_of_le (hx.trans he) hu
      rw [sub_add_cancel] at this; linarith
    have := hK.dist_le_mul (t, x) ⟨ht, by simpa using h3⟩ (t, u) ⟨ht, by simp; linarith⟩
    rw [Prod.dist_eq, dist_self, max_eq_right dist_nonneg, dist_eq_norm, dist_eq_norm] at this
    exact this.trans (mul_le_mul_of_nonneg_left hx K.2)
  have := (convex_closedBall u ‖e‖).norm_image_sub_le_of_norm_hasFDerivWithin_le' h1 h2
    (mem_closedBall_self (norm_nonneg e)) (y := u + e) (by simp)
  rw [add_sub_cancel_left] at this
  calc _ ≤ K * ‖e‖ * ‖e‖ := this
    _ = K * ‖e‖ ^ 2 := by ring

/-- Solutions are smoother than the right-hand side. -/
theorem solution_contDiffOn {m : ℕ} (hf : ContDiff ℝ m (Function.uncurry f)) (hab : a < b)
    (hy : ∀ t ∈ Icc a b, HasDerivWithinAt y (f t (y t)) (Icc a b) t) : ∀ k ≤ m + 1, ContDiffOn ℝ k y (Icc a b) := by
  intro k
  induction k with
  | zero => exact fun _ => contDiffOn_zero.2 fun t ht => (hy t ht).continuousWithinAt
  | succ k ih =>
    intro hk
    have hu : UniqueDiffOn ℝ (Icc a b) := uniqueDiffOn_Icc hab
    have hd : ∀ t ∈ Icc a b, derivWithin y (Icc a b) t = f t (y t) := fun t ht => (hy t ht).derivWithin (hu t ht)
    rw [Nat.cast_succ, contDiffOn_succ_iff_derivWithin hu]
    refine ⟨fun t ht => (hy t ht).differentiableWithinAt, by simp, ?_⟩
    have h1 : ContDiffOn ℝ k (fun t => (t, y t)) (Icc a b) := contDiffOn_id.prodMk (ih (by omega))
    have h2 : ContDiffOn ℝ k (fun t => f t (y t)) (Icc a b) :=
      (hf.of_le (by exact_mod_cast (by omega : k ≤ m))).comp_contDiffOn h1
    exact h2.congr hd

theorem iterated {G : Type*} [NormedAddCommGroup G] [NormedSpace ℝ G] {g : ℝ → G} {m : ℕ} (hab : a < b)
    (hg : ContDiffOn ℝ m g (Icc a b)) : (∀ k < m, ∀ t ∈ Icc a b, HasDerivWithinAt (iteratedDerivWithin k g (Icc a b))
      (iteratedDerivWithin (k + 1) g (Icc a b) t) (Icc a b) t) ∧
      ∀ k ≤ m, ContinuousOn (iteratedDerivWithin k g (Icc a b)) (Icc a b) := by
  have hu : UniqueDiffOn ℝ (Icc a b) := uniqueDiffOn_Icc hab
  refine ⟨fun k hk t ht => ?_, fun k hk => hg.continuousOn_iteratedDerivWithin (by exact_mod_cast hk) hu⟩
  have h1 := hg.differentiableOn_iteratedDerivWithin (by exact_mod_cast hk) hu t ht
  rw [iteratedDerivWithin_succ]
  exact h1.hasDerivWithinAt

/-- What the analysis of the local error uses, for a smooth problem. -/
theorem exists_setup (hf : ContDiff ℝ 5 (Function.uncurry f)) (hab : a < b)
    (hy : ∀ t ∈ Icc a b, HasDerivWithinAt y (f t (y t)) (Icc a b) t) : Nonempty (Setup f y a b) := by
  have hu : UniqueDiffOn ℝ (Icc a b) := uniqueDiffOn_Icc hab
  have hyc := solution_contDiffOn (m := 5) (by exact_mod_cast hf) hab hy
  obtain ⟨R, hR⟩ := isCompact_Icc.exists_bound_of_continuousOn (hyc 0 (by omega)).continuousOn
  obtain ⟨K, hK⟩ := linearise (a := a) (b := b) (hf.of_le (by norm_num)) R
  have hA : ContDiffOn ℝ 2 (fun t => dstate f t (y t)) (Icc a b) := by
    have h1 : ContDiffOn ℝ 2 (fun t => (t, y t)) (Icc a b) := contDiffOn_id.prodMk (by exact_mod_cast hyc 2 (by omega))
    exact ((contDiff_dstate (m := 4) (by exact_mod_cast hf)).of_le (by norm_num)).comp_contDiffOn h1
  obtain ⟨y1, y2⟩ := iterated hab (hyc 6 (by omega))
  obtain ⟨a1, a2⟩ := iterated (m := 2) hab (by exact_mod_cast hA)
  exact ⟨{
    Y := fun k => iteratedDerivWithin k y (Icc a b)
    zero := iteratedDerivWithin_zero
    dY := y1
    cY := y2
    ode := fun t ht => by
      rw [iteratedDerivWithin_one]; exact (hy t ht).derivWithin (hu t ht)
    A := fun k => iteratedDerivWithin k (fun t => dstate f t (y t)) (Icc a b)
    dA := a1
    cA := a2
    K := K
    ε := 1
    ε_pos := one_pos
    lin := fun t ht e he => by
      rw [iteratedDerivWithin_zero]
      exact hK t ht (y t) e (hR t ht) he }⟩

/-- **Convergence of order five.** -/
theorem converges (hf : ContDiff ℝ 5 (Function.uncurry f)) (hab : a < b)
    (hy : ∀ t ∈ Icc a b, HasDerivWithinAt y (f t (y t)) (Icc a b) t) :
    ∃ C h0 : ℝ, 0 < h0 ∧ ∀ (l : List (ℝ × E)) (h : ℝ), 0 ≤ h → h ≤ h0 → l.head? = some (a, y a) →
      l.IsChain (fun p q => p.1 ≤ q.1 ∧ q.1 - p.1 ≤ h ∧ q.2 = step f p.1 p.2 (q.1 - p.1)) → (∀ p ∈ l, p.1 ≤ b) →
      ∀ p ∈ l, ‖p.2 - y p.1‖ ≤ C * h ^ 5 := by
  obtain ⟨S⟩ := exists_setup hf hab hy
  obtain ⟨R, hR⟩ := isCompact_Icc.exists_bound_of_continuousOn (f := y) (fun t ht => (hy t ht).continuousWithinAt)
  obtain ⟨M, L, H⟩ := exists_bounds (a := a) (b := b) (hf.of_le (by norm_num)) (R + 2)
  exact H.converges (by simpa using hR) S.local_error

end smooth

end Cyphus.Conv
