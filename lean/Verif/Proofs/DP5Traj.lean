import Verif.Proofs.Sample
/-!
# Trajectories of `DormandPrince5` in exact arithmetic
-/

namespace Cyphus
namespace DP5
open X
set_option linter.unusedSectionVars false
set_option autoImplicit false
noncomputable section
variable {n : ℕ} {P : Type}

section
variable {E : Env n} {s s' : St X n P} {t : ℝ} {u : Fin n → ℝ} {h : ℝ}

theorem err_zero (E : Env n) (t : ℝ) (u : Fin n → ℝ) : E.err t u 0 = 0 := by
  have : uerrR E.f t u 0 = 0 := by funext i; simp [uerrR]
  unfold Env.err errR Spec.errNorm
  rw [this]; simp

theorem next_zero (E : Env n) (t : ℝ) (u : Fin n → ℝ) : E.next t u 0 = u := by
  funext i; simp [Env.next, unewR]

theorem Problem.dir_sq {b : Builder X n P} {t0 : ℝ} {u0 : Fin n → ℝ} (H : Problem E b t0 u0) :
    E.d * E.d = 1 ∧ 0 ≤ (E.tf - t0) * E.d := by
  rw [H.dir]
  split
  · constructor <;> linarith
  · constructor <;> linarith

/-- A step which is reduced keeps its sign. -/
theorem RejH.sign (hsf : 0 < E.sf) (hfl : 0 < E.fl) {k : ℕ} {h1 : ℝ} (hr : RejH E t u k h h1) :
    ∃ r, 0 < r ∧ h1 = r * h := by
  induction hr with
  | zero h0 => exact ⟨1, one_pos, by ring⟩
  | @succ k h1 h2 he _ ih =>
    obtain ⟨r, r0, e⟩ := ih
    have : 0 < min (1 / E.fl) (E.err t u h1 ^ expo E.be / E.sf) := by
      have : 0 < E.err t u h1 ^ expo E.be := Real.rpow_pos_of_pos (by linarith) _
      positivity
    refine ⟨r * (min (1 / E.fl) (E.err t u h1 ^ expo E.be / E.sf))⁻¹, by positivity, ?_⟩
    rw [e, Env.shrink, shrink]; ring

theorem shrink_ratio (hS : E.Sane) (hsf : 0 < E.sf) (hfl : 0 < E.fl) {h1 : ℝ} (he : 1 < E.err t u h1) :
    ∃ r, 0 < r ∧ r ≤ max E.fl E.sf ∧ E.shrink t u h1 = r * h1 := by
  have h1' : 1 ≤ E.err t u h1 ^ expo E.be := Real.one_le_rpow he.le hS.expo
  have hm : min (1 / E.fl) (1 / E.sf) ≤ min (1 / E.fl) (E.err t u h1 ^ expo E.be / E.sf) :=
    min_le_min_left _ (by gcongr)
  have h0 : 0 < min (1 / E.fl) (1 / E.sf) := by positivity
  refine ⟨(min (1 / E.fl) (E.err t u h1 ^ expo E.be / E.sf))⁻¹, inv_pos.2 (h0.trans_le hm), ?_, ?_⟩
  · refine (inv_anti₀ h0 hm).trans ?_
    rcases min_cases (1 / E.fl) (1 / E.sf) with ⟨e, _⟩ | ⟨e, _⟩ <;> rw [e]
    · simp
    · simp
  · rw [Env.shrink, shrink]; ring

theorem RejH.sane (hS : E.Sane) (hsf : 0 < E.sf) (hfl : 0 < E.fl) {k : ℕ} {h1 : ℝ}
    (hr : RejH E t u k h h1) : ∃ r, 0 < r ∧ r ≤ 1 ∧ h1 = r * h := by
  induction hr with
  | zero h0 => exact ⟨1, one_pos, le_rfl, by ring⟩
  | @succ k h1 h2 he _ ih =>
    obtain ⟨r, r0, r1, e⟩ := ih
    obtain ⟨q, q0, q1, e'⟩ := shrink_ratio hS hsf hfl he
    refine ⟨r * q, by positivity, ?_, by rw [e, e']; ring⟩
    have : q ≤ 1 := q1.trans (max_le hS.facl hS.safe)
    nlinarith

theorem RejH.of_zero {k : ℕ} {h1 : ℝ} (hr : RejH E t u k 0 h1) : k = 0 ∧ h1 = 0 := by
  cases hr with
  | zero => exact ⟨rfl, rfl⟩
  | succ he _ => rw [err_zero] at he; linarith

/-- The sign of the next step. -/
theorem nextH_sign {mx : Option ℝ} {d : ℝ} (hd : d * d = 1) (hm : ∀ m ∈ mx, 0 < m) (rej : Bool) {h q : ℝ}
    (hq : 0 < q) : (0 ≤ h * d → 0 ≤ nextH mx d rej h q * d) ∧
      (0 < h * d → 0 < nextH mx d rej h q * d) ∧ (h = 0 → nextH mx d rej h q = 0) := by
  have e1 : ∀ m : ℝ, d * m * d = m := fun m => by rw [mul_assoc, mul_comm m, ← mul_assoc, hd, one_mul]
  have e2 : h / q * d = h * d / q := by ring
  unfold nextH
  cases mx with
  | none =>
    dsimp only
    refine ⟨?_, ?_, ?_⟩
    · intro h0
      split
      · rw [e1]; positivity
      · rw [e2]; positivity
    · intro h0
      split
      · rw [e1]
        have : h ≠ 0 := by rintro rfl; simp at h0
        positivity
      · rw [e2]; positivity
    · rintro rfl; simp
  | some m =>
    have hm := hm m rfl
    dsimp only
    refine ⟨?_, ?_, ?_⟩
    · intro h0
      split
      · rw [e1]; positivity
      · split
        · rw [e1]; exact hm.le
        · rw [e2]; positivity
    · intro h0
      have : h ≠ 0 := by rintro rfl; simp at h0
      have hd0 : d ≠ 0 := by rintro rfl; simp at hd
      split
      · rw [e1]
        split
        · have := hm.ne'
          positivity
        · positivity
      · split
        · rw [e1]; exact hm
        · rw [e2]; positivity
    · rintro rfl
      have : ¬ m < |0 / q| := by simp; linarith
      simp only [this, if_false]
      simp

/-- Runs stay among the states described by `Good`. -/
theorem Problem.good {b : Builder X n P} {t0 : ℝ} {u0 : Fin n → ℝ} (H : Problem E b t0 u0)
    {s0 : St X n P} (hb : b.build alg = .ok s0) {k : ℕ} (hs : Steps alg none k s0 s) :
    ∃ t u h, Good E s t u h := by
  refine Steps.induct (alg := alg) (I := fun _ s => ∃ t u h, Good E s t u h) ?_ ?_ hs
  · exact ⟨_, _, _, (H.build hb).1⟩
  · rintro _ s s' o ⟨t, u, h, G⟩ h1
    obtain ⟨⟨fuel, h1⟩, -⟩ := stepReturns_none_iff.1 h1
    obtain ⟨k, h1, q, -, -, -, -, G', -⟩ := G.step h1
    exact ⟨_, _, _, G'⟩

/-- The recorded points form a chain of accepted Runge-Kutta steps, the last one is the current point. -/
theorem Problem.chain_last {b : Builder X n P} {t0 : ℝ} {u0 : Fin n → ℝ} (H : Problem E b t0 u0)
    {s0 : St X n P} (hb : b.build alg = .ok s0) {k : ℕ} (hs : Steps alg none k s0 s)
    (R : ℝ × (Fin n → ℝ) → ℝ × (Fin n → ℝ) → Prop)
    (hR : ∀ t u h, E.err t u h ≤ 1 → R (t, u) (t + h, E.next t u h)) :
    ∃ l t u h, Good E s t u h ∧ Recorded s.sol l ∧ l.head? = some (t0, u0) ∧ l.IsChain R ∧
      l.getLast? = some (t, u) ∧ l.length = k + 1 := by
  clear * - H hb hs hR
  induction k generalizing s with
  | zero =>
    obtain rfl := Steps.zero_eq rfl hs
    obtain ⟨G, -, -, h1, h2, -⟩ := H.build hb
    exact ⟨[(t0, u0)], t0, u0, 1e-6, G, ⟨by simp [h1], by simp [h2]⟩, rfl, by simp, rfl, rfl⟩
  | succ k ih =>
    obtain ⟨s1, o, h1, h2⟩ := Steps.cases_snoc hs
    obtain ⟨l, t, u, h, G, hl, hh, hc, hlast, hlen⟩ := ih h1
    obtain ⟨⟨fuel, h2⟩, -⟩ := stepReturns_none_iff.1 h2
    obtain ⟨k, h1, q, -, he, -, -, G', -, -, sp⟩ := G.step h2
    refine ⟨l ++ [(t + h1, E.next t u h1)], _, _, _, G', ⟨?_, ?_⟩, ?_, ?_, by simp, by simp [hlen]⟩
    · rw [sp.ts, hl.1, G'.num.t]; simp
    · rw [sp.us, hl.2, G'.num.u]; simp
    · rw [List.head?_append, hh]; rfl
    · rw [List.isChain_append]
      refine ⟨hc, by simp, ?_⟩
      intro x hx y hy
      rw [hlast] at hx
      simp at hx hy
      subst hx hy
      exact hR t u h1 he

/-- The recorded points form a chain of accepted Runge-Kutta steps. -/
theorem Problem.chain {b : Builder X n P} {t0 : ℝ} {u0 : Fin n → ℝ} (H : Problem E b t0 u0)
    {s0 : St X n P} (hb : b.build alg = .ok s0) {k : ℕ} (hs : Steps alg none k s0 s)
    (R : ℝ × (Fin n → ℝ) → ℝ × (Fin n → ℝ) → Prop)
    (hR : ∀ t u h, E.err t u h ≤ 1 → R (t, u) (t + h, E.next t u h)) :
    ∃ l, Recorded s.sol l ∧ l.head? = some (t0, u0) ∧ l.IsChain R ∧ l.length = k + 1 := by
  obtain ⟨l, t, u, h, -, h1, h2, h3, -, h4⟩ := H.chain_last hb hs R hR
  exact ⟨l, h1, h2, h3, h4⟩

/-- The state has not passed the end; if the last step was the final one it is at the end. -/
structure Pos (E : Env n) (s : St X n P) (t : ℝ) (u : Fin n → ℝ) (h : ℝ) : Prop where
  good : Good E s t u h
  behind : 0 ≤ (E.tf - t) * E.d
  last : s.cache.last = true → t = E.tf ∧ 0 ≤ h * E.d

/-- The step tried first does not lead past the end. -/
theorem first_bound (E : Env n) (hd : E.d * E.d = 1) {t h : ℝ} (hb : 0 ≤ (E.tf - t) * E.d) :
    E.first t h * E.d ≤ (E.tf - t) * E.d ∧ (0 < h * E.d → 0 < (E.tf - t) * E.d → 0 < E.first t h * E.d) ∧
    (0 ≤ h * E.d → 0 ≤ E.first t h * E.d) ∧ (0 ≤ h * E.d → t = E.tf → E.first t h = 0) := by
  unfold Env.first
  have e : (t + 1.01 * h - E.tf) * E.d = 1.01 * (h * E.d) - (E.tf - t) * E.d := by ring
  rw [e]
  split
  · exact ⟨le_rfl, fun _ h => h, fun _ => hb, fun _ h => by rw [h, sub_self]⟩
  · rename_i hc
    norm_num at hc
    refine ⟨?_, fun h _ => h, fun h => h, ?_⟩
    · by_cases h0 : 0 ≤ h * E.d
      · linarith
      · linarith
    · rintro h0 rfl
      simp at hc
      have : h * E.d = 0 := le_antisymm (by linarith) h0
      have hd0 : E.d ≠ 0 := by intro h; rw [h] at hd; simp at hd
      exact (mul_eq_zero.1 this).resolve_right hd0

theorem Pos.step (hS : E.Sane) (hd : E.d * E.d = 1) (Q : Pos E s t u h) {fuel : ℕ}
    (hs : DP5.step fuel s = .ok s') :
    ∃ k h1 h', RejH E t u k (E.first t h) h1 ∧ E.err t u h1 ≤ 1 ∧
      Pos E s' (t + h1) (E.next t u h1) h' ∧ StepSpec k s s' ∧
      h1 * E.d ≤ (E.tf - t) * E.d ∧
      (0 < h * E.d → 0 < (E.tf - t) * E.d → 0 < h1 * E.d) ∧
      (0 < h1 * E.d → 0 < h' * E.d) ∧
      (s'.cache.last = false → 0 < h * E.d → 0 < (E.tf - t) * E.d → 0 < (E.tf - (t + h1)) * E.d) ∧
      (s.cache.last = true → h1 = 0 ∧ h' = 0 ∧ s'.cache.last = true) ∧
      (∀ m ∈ E.mx, s.cache.last = false → 0 < h * E.d → h * E.d ≤ m → h1 * E.d ≤ 1.01 * m) ∧
      (0 ≤ h * E.d → 0 ≤ h1 * E.d ∧ 0 ≤ h' * E.d) := by
  have G := Q.good
  obtain ⟨k, h1, q, r, he, q1, q2, G', hl, -, sp⟩ := G.step hs
  have hq : 0 < q := lt_of_lt_of_le (by have := G.ctl.facr_pos; positivity) q1
  obtain ⟨b1, b2, b3, b4⟩ := first_bound E hd (h := h) Q.behind
  obtain ⟨ρ, ρ0, ρ1, e1⟩ := r.sane hS G.ctl.safe_pos G.ctl.facl_pos
  obtain ⟨n1, n2, n3⟩ := nextH_sign hd G.ctl.dtmax_pos (if k = 0 then s.cache.reject else true) (h := h1) hq
  have e2 : h1 * E.d = ρ * (E.first t h * E.d) := by rw [e1]; ring
  have hbound : h1 * E.d ≤ (E.tf - t) * E.d := by
    rw [e2]
    by_cases h0 : 0 ≤ E.first t h * E.d
    · nlinarith
    · have := Q.behind
      nlinarith
  have e3 : (E.tf - (t + h1)) * E.d = (E.tf - t) * E.d - h1 * E.d := by ring
  have hd0 : E.d ≠ 0 := by intro h; rw [h] at hd; simp at hd
  have hfl : s.cache.last = true → h1 = 0 ∧ s'.cache.last = true := by
    intro hs
    obtain ⟨h2, h3⟩ := Q.last hs
    have := b4 h3 h2
    rw [this] at r
    obtain ⟨k0, h10⟩ := r.of_zero
    subst k0
    rw [hl]
    simp [h10, hs]
  refine ⟨k, h1, _, r, he, ⟨G', ?_, ?_⟩, sp, hbound, ?_, n2, ?_, ?_, ?_, ?_⟩
  · rw [e3]; linarith
  · intro hlt
    rw [hl] at hlt
    split at hlt
    · rename_i hk
      subst hk
      have r0 : h1 = E.first t h := by cases r; rfl
      split at hlt
      · rename_i hc
        have : h1 = E.tf - t := by rw [r0, Env.first, if_pos hc]
        exact ⟨by rw [this]; ring, n1 (by rw [this]; exact Q.behind)⟩
      · obtain ⟨h2, -⟩ := hfl hlt
        obtain ⟨h4, h5⟩ := Q.last hlt
        subst h2
        exact ⟨by rw [h4]; ring, n1 (by simp)⟩
    · simp at hlt
  · intro h2 h3
    rw [e2]
    exact mul_pos ρ0 (b2 h2 h3)
  · intro hlf h2 h3
    rw [e3]
    have hc : h1 * E.d < (E.tf - t) * E.d := by
      by_cases hc : (t + 1.01 * h - E.tf) * E.d > 0
      · rw [hl] at hlf
        simp only [hc, if_true] at hlf
        have hk : k ≠ 0 := by rintro rfl; simp at hlf
        have hf : E.first t h = E.tf - t := by rw [Env.first, if_pos hc]
        rw [hf] at r e2
        cases r with
        | zero => exact absurd rfl hk
        | succ he r =>
          obtain ⟨ρ', p0, p1, e'⟩ := r.sane hS G.ctl.safe_pos G.ctl.facl_pos
          obtain ⟨σ, s0, s1, e''⟩ := shrink_ratio hS G.ctl.safe_pos G.ctl.facl_pos he
          have : h1 * E.d = ρ' * σ * ((E.tf - t) * E.d) := by rw [e', e'']; ring
          by_contra hcon
          have h4 : h1 = E.tf - t := by
            have := le_antisymm hbound (not_lt.1 hcon)
            exact mul_right_cancel₀ hd0 this
          have : E.err t u (E.tf - t) ≤ 1 := by rw [← h4]; assumption
          linarith
      · have e : (t + 1.01 * h - E.tf) * E.d = 1.01 * (h * E.d) - (E.tf - t) * E.d := by ring
        have hf : E.first t h = h := by rw [Env.first, if_neg hc]
        rw [e] at hc
        rw [e2, hf]
        norm_num at hc
        nlinarith
    linarith
  · intro h2
    obtain ⟨h3, h4⟩ := hfl h2
    exact ⟨h3, n3 h3, h4⟩
  · intro m hm _ h2 h3
    rw [e2]
    by_cases hc : (t + 1.01 * h - E.tf) * E.d > 0
    · have hf : E.first t h = E.tf - t := by rw [Env.first, if_pos hc]
      have e : (t + 1.01 * h - E.tf) * E.d = 1.01 * (h * E.d) - (E.tf - t) * E.d := by ring
      rw [e] at hc
      rw [hf]
      have := Q.behind
      norm_num at hc ⊢
      nlinarith
    · have hf : E.first t h = h := by rw [Env.first, if_neg hc]
      rw [hf]
      norm_num
      nlinarith
  · intro h2
    have : 0 ≤ h1 * E.d := by rw [e2]; have := b3 h2; positivity
    exact ⟨this, n1 this⟩

theorem Problem.pos {b : Builder X n P} {t0 : ℝ} {u0 : Fin n → ℝ} (H : Problem E b t0 u0)
    {s0 : St X n P} (hb : b.build alg = .ok s0) : Pos E s0 t0 u0 1e-6 := by
  obtain ⟨G, -, hl, -⟩ := H.build hb
  exact ⟨G, H.dir_sq.2, by simp [hl]⟩

/-- Return code and `last` flag belong together. -/
theorem StepSpec.success {k : ℕ} (sp : StepSpec k s s') (hc : s.sol.retcode = .Success → s'.cache.last = true) :
    s'.sol.retcode = .Success ↔ s'.cache.last = true := by
  obtain ⟨c, h1, h2⟩ := sp.code
  rw [h2]
  cases hl : s'.cache.last with
  | true => simp
  | false =>
    simp only [Bool.false_eq_true, if_false, iff_false]
    split
    · simp
    · rcases h1 with rfl | ⟨-, rfl⟩
      · intro h; rw [hc h] at hl; simp at hl
      · simp

/-- The invariant of runs with sane options. -/
theorem Problem.run {b : Builder X n P} {t0 : ℝ} {u0 : Fin n → ℝ} (H : Problem E b t0 u0) (hS : E.Sane)
    {s0 : St X n P} (hb : b.build alg = .ok s0) {k : ℕ} (hs : Steps alg none k s0 s) :
    ∃ t u h, Pos E s t u h ∧ (s.sol.retcode = .Success ↔ s.cache.last = true) := by
  refine Steps.induct (alg := alg)
    (I := fun _ s => ∃ t u h, Pos E s t u h ∧ (s.sol.retcode = .Success ↔ s.cache.last = true)) ?_ ?_ hs
  · obtain ⟨-, -, hl, -, -, hc, -⟩ := H.build hb
    exact ⟨_, _, _, H.pos hb, by simp [hl, hc]⟩
  · rintro _ s o s' ⟨t, u, h, Q, hl⟩ h1
    obtain ⟨⟨fuel, h1⟩, -⟩ := stepReturns_none_iff.1 h1
    obtain ⟨k, h1, h', -, -, Q', sp, -, -, -, -, h5, -⟩ := Q.step hS H.dir_sq.1 h1
    exact ⟨_, _, _, Q', sp.success fun h => (h5 (hl.1 h)).2.2⟩

/-- Nothing is recorded by a run which continues after the final flag was set. -/
theorem Problem.some_last {b : Builder X n P} {t0 : ℝ} {u0 : Fin n → ℝ} (H : Problem E b t0 u0)
    {s0 : St X n P} (hb : b.build alg = .ok s0) {k : ℕ} (hs : SomeSteps alg none k s0 s) :
    s.sol.retcode = .Continue ∧ s.cache.last = false := by
  refine SomeSteps.induct (alg := alg)
    (I := fun _ s => s.sol.retcode = .Continue ∧ s.cache.last = false) ?_ ?_ hs
  · obtain ⟨-, -, hl, -, -, hc, -⟩ := H.build hb
    exact ⟨hc, hl⟩
  · rintro _ s o s' ⟨hc, -⟩ h1
    obtain ⟨⟨fuel, h1⟩, ho⟩ := stepReturns_none_iff.1 h1
    obtain ⟨k, s1, -, hr, -, -, -, sp⟩ := step_spec h1
    have hcont : s'.sol.retcode = .Continue := by
      by_contra hne
      rw [if_neg hne] at ho
      simp at ho
    refine ⟨hcont, ?_⟩
    have := sp.success (by rw [hc]; simp)
    rw [hcont] at this
    cases hl : s'.cache.last with
    | false => rfl
    | true => exact absurd (this.2 hl) (by simp)

end
end
end DP5
end Cyphus
