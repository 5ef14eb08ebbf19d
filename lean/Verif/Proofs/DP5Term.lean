import Verif.Proofs.DP5Traj
/-!
# Termination of a `DormandPrince5` step, times of the right-hand-side calls
-/

namespace Cyphus
namespace DP5
open X
set_option linter.unusedSectionVars false
set_option autoImplicit false
noncomputable section
variable {n : ℕ} {P : Type}

theorem errNorm_le {a r : ℝ} (ha : 0 < a) (hr : 0 ≤ r) {u u' e : Fin n → ℝ} (he : ∀ i, |e i| ≤ a) :
    Spec.errNorm a r u u' e ≤ 1 := by
  unfold Spec.errNorm
  rw [Real.sqrt_le_one]
  obtain rfl | hn := Nat.eq_zero_or_pos n
  · simp
  rw [div_le_one (by exact_mod_cast hn)]
  calc ∑ i, (e i / (a + r * max |u i| |u' i|)) ^ 2 ≤ ∑ i : Fin n, (1 : ℝ) := by
        refine Finset.sum_le_sum fun i _ => ?_
        have h0 : 0 ≤ max |u i| |u' i| := le_max_of_le_left (abs_nonneg _)
        have h1 : a ≤ a + r * max |u i| |u' i| := by nlinarith
        rw [sq_le_one_iff_abs_le_one, abs_div, abs_of_pos (ha.trans_le h1), div_le_one (ha.trans_le h1)]
        exact (he i).trans h1
    _ = n := by simp

section
variable {f : ℝ → (Fin n → ℝ) → Fin n → ℝ} {t : ℝ} {u : Fin n → ℝ}

/-- Small steps have small errors. -/
theorem uerr_small (hf : LocallyBounded f t u) {a : ℝ} (ha : 0 < a) :
    ∃ η > 0, ∀ h, |h| ≤ η → ∀ i, |uerrR f t u h i| ≤ a := by
  obtain ⟨δ, δ0, M', hM'⟩ := hf
  obtain ⟨M, M0, hM⟩ : ∃ M > 0, ∀ t' u', |t' - t| ≤ δ → (∀ i, |u' i - u i| ≤ δ) → ∀ i, |f t' u' i| ≤ M :=
    ⟨max M' 1, by positivity, fun t' u' h1 h2 i => (hM' t' u' h1 h2 i).trans (le_max_left _ _)⟩
  refine ⟨min (min δ (δ / (30 * M))) (a / M), by positivity, fun h hh => ?_⟩
  have h1 : |h| ≤ δ := hh.trans ((min_le_left _ _).trans (min_le_left _ _))
  have h2 : |h| * (30 * M) ≤ δ := by
    rw [← le_div_iff₀ (by positivity)]
    exact hh.trans ((min_le_left _ _).trans (min_le_right _ _))
  have h3 : |h| * M ≤ a := by
    rw [← le_div_iff₀ M0]
    exact hh.trans (min_le_right _ _)
  have hn : 0 ≤ |h| := abs_nonneg h
  -- a stage argument of the form `u + h * x` with `|x| ≤ 30 M`
  have key : ∀ (c : ℝ) (x : Fin n → ℝ), 0 ≤ c → c ≤ 1 → (∀ i, |x i| ≤ 30 * M) →
      ∀ i, |f (t + c * h) (fun i => u i + h * x i) i| ≤ M := by
    intro c x c0 c1 hx i
    refine hM _ _ ?_ ?_ i
    · rw [add_sub_cancel_left, abs_mul, abs_of_nonneg c0]; nlinarith
    · intro i
      rw [add_sub_cancel_left, abs_mul]
      exact (mul_le_mul_of_nonneg_left (hx i) hn).trans h2
  have k1 : ∀ i, |K1 f t u i| ≤ M := by
    intro i
    refine hM t u (by simp [δ0.le]) (by simp [δ0.le]) i
  have k2 : ∀ i, |K2 f t u h i| ≤ M := by
    unfold K2
    simp only [mul_assoc]
    refine key C2 _ (by rw [C2_val]; norm_num) (by rw [C2_val]; norm_num) fun i => ?_
    rw [A21_val]
    have := abs_le.1 (k1 i)
    rw [abs_le]
    constructor <;> linarith
  have k3 : ∀ i, |K3 f t u h i| ≤ M := by
    unfold K3
    refine key C3 _ (by rw [C3_val]; norm_num) (by rw [C3_val]; norm_num) fun i => ?_
    rw [A31_val, A32_val]
    have := abs_le.1 (k1 i)
    have := abs_le.1 (k2 i)
    rw [abs_le]
    constructor <;> linarith
  have k4 : ∀ i, |K4 f t u h i| ≤ M := by
    unfold K4
    refine key C4 _ (by rw [C4_val]; norm_num) (by rw [C4_val]; norm_num) fun i => ?_
    rw [A41_val, A42_val, A43_val]
    have := abs_le.1 (k1 i)
    have := abs_le.1 (k2 i)
    have := abs_le.1 (k3 i)
    rw [abs_le]
    constructor <;> linarith
  have k5 : ∀ i, |K5 f t u h i| ≤ M := by
    unfold K5
    refine key C5 _ (by rw [C5_val]; norm_num) (by rw [C5_val]; norm_num) fun i => ?_
    rw [A51_val, A52_val, A53_val, A54_val]
    have := abs_le.1 (k1 i)
    have := abs_le.1 (k2 i)
    have := abs_le.1 (k3 i)
    have := abs_le.1 (k4 i)
    rw [abs_le]
    constructor <;> linarith
  have k6 : ∀ i, |K6 f t u h i| ≤ M := by
    unfold K6 K6arg
    have := key 1 (fun i => A61 * K1 f t u i + A62 * K2 f t u h i + A63 * K3 f t u h i + A64 * K4 f t u h i
      + A65 * K5 f t u h i) zero_le_one le_rfl fun i => by
        rw [A61_val, A62_val, A63_val, A64_val, A65_val]
        have := abs_le.1 (k1 i)
        have := abs_le.1 (k2 i)
        have := abs_le.1 (k3 i)
        have := abs_le.1 (k4 i)
        have := abs_le.1 (k5 i)
        rw [abs_le]
        constructor <;> linarith
    rwa [one_mul] at this
  have k7 : ∀ i, |K7 f t u h i| ≤ M := by
    unfold K7 unewR
    have := key 1 (fun i => A71 * K1 f t u i + A73 * K3 f t u h i + A74 * K4 f t u h i + A75 * K5 f t u h i
      + A76 * K6 f t u h i) zero_le_one le_rfl fun i => by
        rw [A71_val, A73_val, A74_val, A75_val, A76_val]
        have := abs_le.1 (k1 i)
        have := abs_le.1 (k3 i)
        have := abs_le.1 (k4 i)
        have := abs_le.1 (k5 i)
        have := abs_le.1 (k6 i)
        rw [abs_le]
        constructor <;> linarith
    rwa [one_mul] at this
  intro i
  unfold uerrR
  rw [abs_mul]
  refine le_trans (mul_le_mul_of_nonneg_left ?_ hn) h3
  rw [E1_val, E3_val, E4_val, E5_val, E6_val, E7_val]
  have := abs_le.1 (k1 i)
  have := abs_le.1 (k3 i)
  have := abs_le.1 (k4 i)
  have := abs_le.1 (k5 i)
  have := abs_le.1 (k6 i)
  have := abs_le.1 (k7 i)
  rw [abs_le]
  constructor <;> linarith
end

section
variable {E : Env n} {s s' : St X n P} {t : ℝ} {u : Fin n → ℝ} {h : ℝ}

/-- A step returns if small steps are accepted and rejection reduces the step. -/
theorem Good.returns (G : Good E s t u h) (hS : E.Sane) (h1 : E.sf < 1) (h2 : E.fl < 1)
    (hf : LocallyBounded E.f t u) : ∃ fuel s', DP5.step fuel s = .ok s' := by
  obtain ⟨η, η0, hη⟩ := uerr_small hf G.tol.abs_pos
  have acc : ∀ h, |h| ≤ η → E.err t u h ≤ 1 := fun h hh =>
    errNorm_le G.tol.abs_pos G.tol.rel_nonneg (hη h hh)
  set ρ := max E.fl E.sf with hρ
  have hρ1 : ρ < 1 := max_lt h2 h1
  have hρ0 : 0 < ρ := lt_max_of_lt_left G.ctl.facl_pos
  have key : ∀ (N : ℕ) (s : St X n P) (h : ℝ), Good E s t u h → ρ ^ N * |h| ≤ η →
      ∃ k s1, Rejs k s s1 ∧ Fl.le (errOf s1) 1.0 = true ∧ s1.opts.max_stiff ≠ 0 := by
    intro N
    induction N with
    | zero =>
      intro s h G hh
      refine ⟨0, s, .zero s, ?_, G.ctl.stiff⟩
      rw [G.le_iff]
      simpa using acc h (by simpa using hh)
    | succ N ih =>
      intro s h G hh
      by_cases hc : E.err t u h ≤ 1
      · refine ⟨0, s, .zero s, ?_, G.ctl.stiff⟩
        rw [G.le_iff]; simpa using hc
      · have hl : Fl.le (errOf s) 1.0 = false := by rw [G.le_iff]; simpa using hc
        obtain ⟨r, r0, r1, e⟩ := shrink_ratio hS G.ctl.safe_pos G.ctl.facl_pos (not_le.1 hc)
        obtain ⟨k, s1, h3, h4, h5⟩ := ih (DP5.retry s) _ (G.retry hl) (by
          rw [e, abs_mul, abs_of_pos r0]
          refine le_trans ?_ hh
          rw [pow_succ, mul_assoc]
          gcongr)
        exact ⟨k + 1, s1, .succ hl h3, h4, h5⟩
  have G' := G.clampLast
  set h0 := (if (t + 1.01 * h - E.tf) * E.d > 0 then E.tf - t else h) with hh0
  obtain ⟨N, hN⟩ : ∃ N : ℕ, ρ ^ N * |h0| ≤ η := by
    obtain ⟨N, hN⟩ := exists_pow_lt_of_lt_one (show 0 < η / (|h0| + 1) by positivity) hρ1
    refine ⟨N, ?_⟩
    rw [lt_div_iff₀ (by positivity)] at hN
    nlinarith [pow_pos hρ0 N]
  obtain ⟨k, s1, h3, h4, h5⟩ := key N _ _ G' hN
  exact ⟨k + 1, _, step_ok.2 ⟨k, s1, by omega, h3, h4, h5, rfl⟩⟩

/-- The calls an attempt makes lie in the step. -/
theorem Good.attempt_times (G : Good E s t u h) {lo hi : ℝ} (h0 : 0 ≤ h) (h1 : lo ≤ t) (h2 : t + h ≤ hi) :
    ∀ c ∈ (compute_stages s).trace, c ∈ s.trace ∨
      ∃ x v, c = Call.rhs (fin x) (fv v) ∧ lo ≤ x ∧ x ≤ hi := by
  obtain ⟨v2, v3, v4, v5, e⟩ := G.num.trace
  rw [e]
  intro c hc
  rw [List.mem_append] at hc
  refine hc.imp_right fun hc => ?_
  simp only [List.mem_cons, List.not_mem_nil, or_false] at hc
  have b2 : lo ≤ t + C2 * h ∧ t + C2 * h ≤ hi := by rw [C2_val]; constructor <;> linarith
  have b3 : lo ≤ t + C3 * h ∧ t + C3 * h ≤ hi := by rw [C3_val]; constructor <;> linarith
  have b4 : lo ≤ t + C4 * h ∧ t + C4 * h ≤ hi := by rw [C4_val]; constructor <;> linarith
  have b5 : lo ≤ t + C5 * h ∧ t + C5 * h ≤ hi := by rw [C5_val]; constructor <;> linarith
  have b6 : lo ≤ t + h ∧ t + h ≤ hi := by constructor <;> linarith
  rcases hc with rfl | rfl | rfl | rfl | rfl | rfl
  exacts [⟨_, _, rfl, b2⟩, ⟨_, _, rfl, b3⟩, ⟨_, _, rfl, b4⟩, ⟨_, _, rfl, b5⟩, ⟨_, _, rfl, b6⟩, ⟨_, _, rfl, b6⟩]

theorem Good.rejs_times (G : Good E s t u h) (hS : E.Sane) {k : ℕ} (hr : Rejs k s s') {lo hi : ℝ} (h0 : 0 ≤ h)
    (h1 : lo ≤ t) (h2 : t + h ≤ hi) :
    ∀ c ∈ s'.trace, c ∈ s.trace ∨ ∃ x v, c = Call.rhs (fin x) (fv v) ∧ lo ≤ x ∧ x ≤ hi := by
  induction hr generalizing h with
  | zero s => exact fun c hc => .inl hc
  | @succ k s s' he _ ih =>
    have hc : 1 < E.err t u h := by rw [G.le_iff] at he; simpa using he
    obtain ⟨r, r0, r1, e⟩ := shrink_ratio hS G.ctl.safe_pos G.ctl.facl_pos hc
    have r1 : r ≤ 1 := r1.trans (max_le hS.facl hS.safe)
    intro c hc
    obtain hc | hc := ih (G.retry he) (by rw [e]; positivity) (by rw [e]; nlinarith) c hc
    · rw [retry_trace] at hc
      exact G.attempt_times h0 h1 h2 c hc
    · exact .inr hc

/-- The right-hand-side calls of a forward step lie between the current time and the end. -/
theorem Pos.step_times (hS : E.Sane) (hd : E.d = 1) (Q : Pos E s t u h) (h0 : 0 ≤ h) {fuel : ℕ}
    (hs : DP5.step fuel s = .ok s') :
    ∀ c ∈ s'.trace, c ∈ s.trace ∨ ∃ x v, c = Call.rhs (fin x) (fv v) ∧ t ≤ x ∧ x ≤ E.tf := by
  obtain ⟨k, s1, -, hr, he, -, rfl⟩ := step_ok.1 hs
  obtain ⟨b1, -, b3, -⟩ := first_bound E (by rw [hd]; ring) (h := h) Q.behind
  rw [hd] at b1 b3
  simp only [mul_one] at b1 b3
  have G := Q.good.clampLast
  change Good E (DP5.clampLast s) t u (E.first t h) at G
  obtain ⟨h1, r1, G1⟩ := G.rejs hr
  obtain ⟨r, r0, r1, e⟩ := r1.sane hS G.ctl.safe_pos G.ctl.facl_pos
  intro c hc
  rw [finishStep_trace, accepted_trace] at hc
  have hf := b3 h0
  obtain hc | hc := G1.attempt_times (lo := t) (hi := E.tf) (by rw [e]; positivity) le_rfl
    (by rw [e]; nlinarith) c hc
  · obtain hc | hc := G.rejs_times hS hr (lo := t) (hi := E.tf) hf le_rfl (by linarith) c hc
    · rw [(clampLast_stats s).2.2.1] at hc
      exact .inl hc
    · exact .inr hc
  · exact .inr hc

end
end
end DP5
end Cyphus
