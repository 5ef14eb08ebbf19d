import Verif.Proofs.RadauSim
import Mathlib.LinearAlgebra.Lagrange
/-!
# The specified algorithm is deterministic
-/

namespace Cyphus
namespace Spec
set_option autoImplicit false
set_option linter.unusedSectionVars false
noncomputable section
variable {n : ℕ}

/-- The extrapolated values are determined. -/
theorem Extrapolates.unique {c : Fin 3 → ℝ} (hc : Function.Injective (Fin.cons 0 c : Fin 4 → ℝ)) {t h h' : ℝ} (h0 : h ≠ 0)
    {u : Fin n → ℝ} {z y y' : Fin 3 → Fin n → ℝ} (H : Extrapolates c t h u z h' y) (H' : Extrapolates c t h u z h' y') : y = y' := by
  funext k i
  obtain ⟨q, d, e0, e1, e2⟩ := H i
  obtain ⟨q', d', e0', e1', e2'⟩ := H' i
  have hq : q = q' := by
    refine Polynomial.eq_of_degrees_lt_of_eval_index_eq (v := fun j : Fin 4 => t + (Fin.cons 0 c : Fin 4 → ℝ) j * h) Finset.univ ?_ ?_ ?_ ?_
    · intro a _ b _ hab
      refine hc (mul_right_cancel₀ h0 (add_left_cancel hab))
    · exact lt_of_le_of_lt d (by simp; norm_cast)
    · exact lt_of_le_of_lt d' (by simp; norm_cast)
    · intro j _
      refine Fin.cases ?_ (fun k => ?_) j
      · simp [e0, e0']
      · simp only [Fin.cons_succ]
        rw [e1, e1']
  have := e2 k
  rw [hq, ← e2' k] at this
  linarith

/-- A Newton pass is determined by the iterate. -/
theorem NewtonPass.unique {M : Transform} {c : Fin 3 → ℝ} {f : ℝ → (Fin n → ℝ) → Fin n → ℝ} {J : Fin n → Fin n → ℝ} {t h hf : ℝ}
    {u : Fin n → ℝ} {g y Δ z Δ' z' : Fin 3 → Fin n → ℝ} (h0 : hf ≠ 0) (h1 : NotEigen J (M.γ / hf))
    (h2 : NotEigen (fun i j => (J i j : ℂ)) ⟨M.α / hf, M.β / hf⟩) (H : NewtonPass M c f J t h hf u g y Δ z)
    (H' : NewtonPass M c f J t h hf u g y Δ' z') : Δ = Δ' ∧ z = z' := by
  have key : ∀ k i, ∑ l, M.Lam k l * (Δ l i - Δ' l i) = hf * ∑ j, J i j * (Δ k j - Δ' k j) := by
    intro k i
    have a := H.system k i
    have b := H'.system k i
    have e1 : ∑ l, M.Lam k l * (Δ l i - Δ' l i) = ∑ l, M.Lam k l * (g l i + Δ l i) - ∑ l, M.Lam k l * (g l i + Δ' l i) := by
      rw [← Finset.sum_sub_distrib]
      exact Finset.sum_congr rfl fun l _ => by ring
    have e2 : ∑ j, J i j * (Δ k j - Δ' k j) = ∑ j, J i j * Δ k j - ∑ j, J i j * Δ' k j := by
      rw [← Finset.sum_sub_distrib]
      exact Finset.sum_congr rfl fun l _ => by ring
    rw [e1, e2]
    linarith
  have k0 : (fun i => Δ 0 i - Δ' 0 i) = 0 := by
    refine h1 _ fun i => ?_
    have := key 0 i
    simp only [Fin.sum_univ_three, Transform.Lam, Matrix.of_apply, Matrix.cons_val_zero, Matrix.cons_val_one, Matrix.cons_val] at this
    field_simp
    linarith
  have k12 : (fun i => (⟨Δ 1 i - Δ' 1 i, Δ 2 i - Δ' 2 i⟩ : ℂ)) = 0 := by
    refine h2 _ fun i => ?_
    have a := key 1 i
    have b := key 2 i
    simp only [Fin.sum_univ_three, Transform.Lam, Matrix.of_apply, Matrix.cons_val_zero, Matrix.cons_val_one, Matrix.cons_val] at a b
    refine Complex.ext ?_ ?_
    · simp only [Complex.re_sum, Complex.mul_re, Complex.ofReal_re, Complex.ofReal_im, zero_mul, sub_zero]
      field_simp
      linarith
    · simp only [Complex.im_sum, Complex.mul_im, Complex.ofReal_re, Complex.ofReal_im, zero_mul, add_zero]
      field_simp
      linarith
  have hΔ : Δ = Δ' := by
    funext k i
    have a0 := congrFun k0 i
    have a12 := congrFun k12 i
    have a1 := congrArg Complex.re a12
    have a2 := congrArg Complex.im a12
    simp only [Pi.zero_apply, Complex.zero_re, Complex.zero_im] at a0 a1 a2
    fin_cases k
    · exact sub_eq_zero.1 a0
    · exact sub_eq_zero.1 a1
    · exact sub_eq_zero.1 a2
  refine ⟨hΔ, ?_⟩
  funext k i
  rw [H.result, H'.result, hΔ]

theorem IsErrEstimate.unique {γ hf h : ℝ} {J : Fin n → Fin n → ℝ} {d e e' : Fin n → ℝ} {z : Fin 3 → Fin n → ℝ}
    (h1 : NotEigen J (γ / hf)) (H : IsErrEstimate γ hf h J d z e) (H' : IsErrEstimate γ hf h J d z e') : e = e' := by
  have : (fun i => e i - e' i) = 0 := by
    refine h1 _ fun i => ?_
    have a := H i
    have b := H' i
    have e2 : ∑ j, J i j * (e j - e' j) = ∑ j, J i j * e j - ∑ j, J i j * e' j := by
      rw [← Finset.sum_sub_distrib]
      exact Finset.sum_congr rfl fun l _ => by ring
    rw [e2]
    linarith
  funext i
  exact sub_eq_zero.1 (congrFun this i)

namespace Radau5

/-- The end of a Newton iteration is determined by the norms. -/
theorem Ends.unique {ε η₁ φ : ℝ} {N m m' : ℕ} {d d' : ℕ → ℝ} {η η' : ℝ} {e e' : Ending} (hd : ∀ k, 1 ≤ k → k ≤ min m m' → d k = d' k)
    (H : Ends ε η₁ φ N d m η e) (H' : Ends ε η₁ φ N d' m' η' e') : m = m' ∧ η = η' ∧ e = e' := by
  have low : ∀ {m m' : ℕ} {d d' : ℕ → ℝ} {η η' : ℝ} {e e' : Ending}, (∀ k, 1 ≤ k → k ≤ m → d k = d' k) → m < m' →
      Ends ε η₁ φ N d m η e → Ends ε η₁ φ N d' m' η' e' → False := by
    intro m m' d d' η η' e e' hd hm H H'
    have hN : m' ≤ N := by cases H' <;> omega
    have h1 : 1 ≤ m := by cases H <;> omega
    have G : GoesOn ε η₁ φ N d' m := by
      cases H' with
      | converged _ _ h _ _ => exact h m h1 hm
      | diverged _ _ h _ => exact h m h1 hm
      | slow _ _ h _ _ => exact h m h1 hm
      | exhausted h => exact h m h1 hm.le
    have G := G.congr (fun k a b => (hd k a b).symm) h1 le_rfl
    cases H with
    | converged _ _ _ _ h => exact absurd G.2 (not_lt.2 h)
    | diverged h2 h3 _ h => exact absurd (G.1 h2 h3).1 (not_lt.2 h)
    | slow h2 h3 _ _ h => exact absurd (G.1 h2 h3).2 (not_lt.2 h)
    | exhausted => omega
  obtain h | h | h := lt_trichotomy m m'
  · exact (low (fun k a b => hd k a (by omega)) h H H').elim
  · subst h
    refine ⟨rfl, ?_⟩
    rw [min_self] at hd
    have hη := eta_congr (ε := ε) (η₁ := η₁) (N := N) hd le_rfl
    have hη' : eta ε η₁ N d (m - 1) = eta ε η₁ N d' (m - 1) := eta_congr (m := m) hd (by omega)
    have hr : 2 ≤ m → rate ε d m = rate ε d' m := fun h => rate_congr hd h le_rfl
    have hp : 2 ≤ m → predicted ε η₁ φ N d m = predicted ε η₁ φ N d' m := fun h => predicted_congr hd h le_rfl
    have hdm : 1 ≤ m → d m = d' m := fun h => hd m h le_rfl
    cases H with
    | converged a1 a2 a3 a4 a5 =>
      cases H' with
      | converged => exact ⟨hη, rfl⟩
      | diverged b1 b2 b3 b4 => exact absurd (a4 b1 b2).1 (by rw [hr b1]; exact not_lt.2 b4)
      | slow b1 b2 b3 b4 b5 => exact absurd (a4 b1 b2).2 (by rw [hp b1]; exact not_lt.2 b5)
      | exhausted b => exact absurd (b _ a1 le_rfl).2 (by rw [← hη, ← hdm a1]; exact not_lt.2 a5)
    | diverged a1 a2 a3 a4 =>
      cases H' with
      | converged b1 b2 b3 b4 b5 => exact absurd (b4 a1 a2).1 (by rw [← hr a1]; exact not_lt.2 a4)
      | diverged => exact ⟨hη', rfl⟩
      | slow b1 b2 b3 b4 b5 => exact absurd b4 (by rw [← hr a1]; exact not_lt.2 a4)
      | exhausted b => omega
    | slow a1 a2 a3 a4 a5 =>
      cases H' with
      | converged b1 b2 b3 b4 b5 => exact absurd (b4 a1 a2).2 (by rw [← hp a1]; exact not_lt.2 a5)
      | diverged b1 b2 b3 b4 => exact absurd a4 (by rw [hr a1]; exact not_lt.2 b4)
      | slow b1 b2 b3 b4 b5 => exact ⟨hη, by rw [hp a1]⟩
      | exhausted b => omega
    | exhausted a =>
      cases H' with
      | converged b1 b2 b3 b4 b5 => exact absurd (a _ b1 le_rfl).2 (by rw [hη, hdm b1]; exact not_lt.2 b5)
      | diverged => omega
      | slow => omega
      | exhausted b => exact ⟨hη, rfl⟩
  · exact (low (fun k a b => (hd k a (by omega)).symm) h H' H).elim

variable {A : Problem n} {σ : State n} {x x' : Trial n}

/-- What the algorithm needs to know about the step before. -/
def State.Sound (σ : State n) : Prop := ∀ p, σ.past = some p → p.h ≠ 0

theorem Start.unique (hc : Function.Injective (Fin.cons 0 A.c : Fin 4 → ℝ)) (hσ : σ.Sound) {h : ℝ} {y y' : Fin 3 → Fin n → ℝ}
    (H : Start A σ h y) (H' : Start A σ h y') : y = y' := by
  unfold Start at H H'
  cases hx : A.ext with
  | false =>
    rw [hx] at H H'
    exact H.trans H'.symm
  | true =>
    cases hp : σ.past with
    | none =>
      rw [hx, hp] at H H'
      exact H.trans H'.symm
    | some p =>
      rw [hx, hp] at H H'
      exact Extrapolates.unique hc (hσ p hp) H H'

theorem Passes.agree (hc : Function.Injective (Fin.cons 0 A.c : Fin 4 → ℝ)) (hσ : σ.Sound) {m m' : ℕ}
    {g y Δ g' y' Δ' : ℕ → Fin 3 → Fin n → ℝ} (H : Passes A σ x m g y Δ) (H' : Passes A σ x m' g' y' Δ') :
    ∀ j ≤ min m m', (g j = g' j ∧ y j = y' j) ∧ ∀ k < j, Δ k = Δ' k := by
  intro j
  induction j with
  | zero =>
    intro _
    have e := Start.unique hc hσ H.start H'.start
    refine ⟨⟨?_, e⟩, fun k hk => absurd hk (Nat.not_lt_zero _)⟩
    funext k i
    rw [H.transf, H'.transf, e]
  | succ j ih =>
    intro hj
    obtain ⟨⟨e1, e2⟩, e3⟩ := ih (by omega)
    have p := H.pass j (by omega)
    have p' := H'.pass j (by omega)
    rw [← e1, ← e2] at p'
    obtain ⟨d1, d2⟩ := NewtonPass.unique H.factored.1 H.factored.2.1 H.factored.2.2 p p'
    refine ⟨⟨?_, d2⟩, fun k hk => ?_⟩
    · rw [H.add j (by omega), H'.add j (by omega), e1, d1]
    · obtain hk | rfl := Nat.lt_succ_iff_lt_or_eq.1 hk
      · exact e3 k hk
      · exact d1

theorem Iterates.unique (hc : Function.Injective (Fin.cons 0 A.c : Fin 4 → ℝ)) (hσ : σ.Sound) {m m' : ℕ} {z z' : Fin 3 → Fin n → ℝ}
    {θ θ' η η' : ℝ} {e e' : Ending} (H : Iterates A σ x m z θ η e) (H' : Iterates A σ x m' z' θ' η' e') :
    m = m' ∧ z = z' ∧ θ = θ' ∧ η = η' ∧ e = e' := by
  obtain ⟨g, y, Δ, P, rfl, rfl, hE⟩ := H
  obtain ⟨g', y', Δ', P', rfl, rfl, hE'⟩ := H'
  have ag := P.agree hc hσ P'
  have hd : ∀ k, 1 ≤ k → k ≤ min m m' → norms A σ Δ k = norms A σ Δ' k := by
    intro k h1 h2
    unfold norms
    rw [(ag _ le_rfl).2 (k - 1) (by omega)]
  obtain ⟨rfl, h2, h3⟩ := hE.unique hd hE'
  rw [min_self] at ag hd
  exact ⟨rfl, (ag m le_rfl).1.2, theta_congr hd le_rfl, h2, h3⟩

theorem Iterates.factored {m : ℕ} {z : Fin 3 → Fin n → ℝ} {θ η : ℝ} {e : Ending} (H : Iterates A σ x m z θ η e) :
    x.h ≠ 0 ∧ x.hm ≠ 0 ∧ A.Regular x.Jm x.hm := by
  obtain ⟨g, y, Δ, P, -⟩ := H
  exact ⟨P.step, P.factored⟩

theorem Err.unique {z : Fin 3 → Fin n → ℝ} {err err' : ℝ} (hR : A.Regular x.Jm x.hm) (H : Err A σ x z err) (H' : Err A σ x z err') :
    err = err' := by
  obtain ⟨e, h1, h2⟩ := H
  obtain ⟨e', h1', h2'⟩ := H'
  obtain rfl := h1.unique hR.1 h1'
  split at h2
  · rename_i h
    rw [if_pos h] at h2'
    exact h2.trans h2'.symm
  · rename_i h
    rw [if_neg h] at h2'
    obtain ⟨d, k1, k2⟩ := h2
    obtain ⟨d', k1', k2'⟩ := h2'
    obtain rfl := k1.unique hR.1 k1'
    exact k2.trans k2'.symm

theorem Fails.unique (hc : Function.Injective (Fin.cons 0 A.c : Fin 4 → ℝ)) (hσ : σ.Sound) {y y' : Trial n}
    (H : Fails A σ x y) (H' : Fails A σ x y') : y = y' := by
  have sing : ∀ {x : Trial n} {m : ℕ} {z : Fin 3 → Fin n → ℝ} {θ η : ℝ} {e : Ending}, x.fresh = true → ¬ A.Regular x.J x.h →
      Iterates A σ x m z θ η e → False := by
    intro x m z θ η e h1 h2 h3
    have := h3.factored.2.2
    unfold Trial.hm Trial.Jm at this
    rw [if_pos h1, if_pos h1] at this
    exact h2 this
  cases H with
  | singular a1 a2 =>
    cases H' with
    | singular => rfl
    | halved b => exact (sing a1 a2 b).elim
    | slowed b => exact (sing a1 a2 b).elim
    | rejected b => exact (sing a1 a2 b).elim
  | halved a =>
    cases H' with
    | singular b1 b2 => exact (sing b1 b2 a).elim
    | halved b =>
      obtain ⟨-, -, -, rfl, -⟩ := a.unique hc hσ b
      rfl
    | slowed b => exact absurd (a.unique hc hσ b).2.2.2.2 (by simp)
    | rejected b => exact absurd (a.unique hc hσ b).2.2.2.2 (by simp)
  | slowed a =>
    cases H' with
    | singular b1 b2 => exact (sing b1 b2 a).elim
    | halved b => exact absurd (a.unique hc hσ b).2.2.2.2 (by simp)
    | slowed b =>
      obtain ⟨-, -, -, rfl, h⟩ := a.unique hc hσ b
      obtain rfl := Ending.slowed.inj h
      rfl
    | rejected b => exact absurd (a.unique hc hσ b).2.2.2.2 (by simp)
  | rejected a a2 a3 =>
    cases H' with
    | singular b1 b2 => exact (sing b1 b2 a).elim
    | halved b => exact absurd (a.unique hc hσ b).2.2.2.2 (by simp)
    | slowed b => exact absurd (a.unique hc hσ b).2.2.2.2 (by simp)
    | rejected b b2 b3 =>
      obtain ⟨rfl, rfl, -, rfl, -⟩ := a.unique hc hσ b
      obtain rfl := Err.unique a.factored.2.2 a2 b2
      rfl

/-- After an accepted attempt there is no further one. -/
theorem Accepts.stuck (hc : Function.Injective (Fin.cons 0 A.c : Fin 4 → ℝ)) (hσ : σ.Sound) {m : ℕ} {z : Fin 3 → Fin n → ℝ}
    {θ η err : ℝ} (H : Accepts A σ x m z θ η err) {y : Trial n} (F : Fails A σ x y) : False := by
  cases F with
  | singular b1 b2 =>
    have := H.newton.factored.2.2
    unfold Trial.hm Trial.Jm at this
    rw [if_pos b1, if_pos b1] at this
    exact b2 this
  | halved b => exact absurd (H.newton.unique hc hσ b).2.2.2.2 (by simp)
  | slowed b => exact absurd (H.newton.unique hc hσ b).2.2.2.2 (by simp)
  | rejected b b2 b3 =>
    obtain ⟨rfl, rfl, -, rfl, -⟩ := H.newton.unique hc hσ b
    obtain rfl := Err.unique H.newton.factored.2.2 H.error b2
    exact absurd H.small (not_lt.2 b3)

theorem Accepts.unique (hc : Function.Injective (Fin.cons 0 A.c : Fin 4 → ℝ)) (hσ : σ.Sound) {m m' : ℕ} {z z' : Fin 3 → Fin n → ℝ}
    {θ θ' η η' err err' : ℝ} (H : Accepts A σ x m z θ η err) (H' : Accepts A σ x' m' z' θ' η' err') :
    x = x' ∧ m = m' ∧ z = z' ∧ θ = θ' ∧ η = η' ∧ err = err' := by
  have key : ∀ {w : Trial n}, Relation.ReflTransGen (Fails A σ) w x → Relation.ReflTransGen (Fails A σ) w x' → x = x' := by
    intro w R
    induction R using Relation.ReflTransGen.head_induction_on with
    | refl =>
      intro R'
      obtain rfl | ⟨y, F, -⟩ := Relation.ReflTransGen.cases_head R'
      · rfl
      · exact (H.stuck hc hσ F).elim
    | head F _ ih =>
      intro R'
      obtain rfl | ⟨y, F', R'⟩ := Relation.ReflTransGen.cases_head R'
      · exact (H'.stuck hc hσ F).elim
      · obtain rfl := F.unique hc hσ F'
        exact ih R'
  obtain rfl := key H.tried H'.tried
  obtain ⟨rfl, rfl, rfl, rfl, -⟩ := H.newton.unique hc hσ H'.newton
  exact ⟨rfl, rfl, rfl, rfl, rfl, Err.unique H.newton.factored.2.2 H.error H'.error⟩

theorem Step.sound {σ' : State n} (H : Step A σ σ') : σ'.Sound := by
  obtain ⟨x, m, z, θ, η, err, a, -, rfl⟩ := H
  intro p hp
  obtain rfl := Option.some.inj hp
  exact a.newton.factored.1

theorem Reach.sound {σ₀ : State n} {k : ℕ} (h0 : σ₀.Sound) (H : Reach A σ₀ k σ) : σ.Sound := by
  cases H with
  | zero => exact h0
  | succ _ h => exact h.sound

theorem Step.unique (hc : Function.Injective (Fin.cons 0 A.c : Fin 4 → ℝ)) (hσ : σ.Sound) {σ₁ σ₂ : State n} (H : Step A σ σ₁)
    (H' : Step A σ σ₂) : σ₁ = σ₂ := by
  obtain ⟨x, m, z, θ, η, err, a, -, rfl⟩ := H
  obtain ⟨x', m', z', θ', η', err', a', -, rfl⟩ := H'
  obtain ⟨rfl, rfl, rfl, rfl, rfl, rfl⟩ := a.unique hc hσ a'
  rfl

theorem Finish.unique (hc : Function.Injective (Fin.cons 0 A.c : Fin 4 → ℝ)) (hσ : σ.Sound) {t t' : ℝ} {u u' : Fin n → ℝ}
    (H : Finish A σ t u) (H' : Finish A σ t' u') : t = t' ∧ u = u' := by
  obtain ⟨x, m, z, θ, η, err, a, -, rfl, rfl⟩ := H
  obtain ⟨x', m', z', θ', η', err', a', -, rfl, rfl⟩ := H'
  obtain ⟨rfl, rfl, rfl, rfl, rfl, rfl⟩ := a.unique hc hσ a'
  exact ⟨rfl, rfl⟩

theorem Step.not_finish (hc : Function.Injective (Fin.cons 0 A.c : Fin 4 → ℝ)) (hσ : σ.Sound) {σ₁ : State n} {t : ℝ} {u : Fin n → ℝ}
    (H : Step A σ σ₁) (H' : Finish A σ t u) : False := by
  obtain ⟨x, m, z, θ, η, err, a, h, -⟩ := H
  obtain ⟨x', m', z', θ', η', err', a', h', -⟩ := H'
  obtain ⟨rfl, -⟩ := a.unique hc hσ a'
  rw [h] at h'
  simp at h'

theorem Reach.unique (hc : Function.Injective (Fin.cons 0 A.c : Fin 4 → ℝ)) {σ₀ σ₁ σ₂ : State n} (h0 : σ₀.Sound) {k : ℕ}
    (H : Reach A σ₀ k σ₁) (H' : Reach A σ₀ k σ₂) : σ₁ = σ₂ := by
  induction k generalizing σ₁ σ₂ with
  | zero =>
    cases H
    cases H'
    rfl
  | succ k ih =>
    cases H with
    | succ a b =>
      cases H' with
      | succ a' b' =>
        obtain rfl := ih a a'
        exact b.unique hc (a.sound h0) b'

/-- The number of steps is determined, too. -/
theorem Reach.finish_unique (hc : Function.Injective (Fin.cons 0 A.c : Fin 4 → ℝ)) {σ₀ σ₁ σ₂ : State n} (h0 : σ₀.Sound) {k k' : ℕ}
    {t t' : ℝ} {u u' : Fin n → ℝ} (H : Reach A σ₀ k σ₁) (F : Finish A σ₁ t u) (H' : Reach A σ₀ k' σ₂) (F' : Finish A σ₂ t' u') :
    k = k' ∧ t = t' ∧ u = u' := by
  have split : ∀ {j k : ℕ} {σ : State n}, j < k → Reach A σ₀ k σ → ∃ σ₁ σ₂, Reach A σ₀ j σ₁ ∧ Step A σ₁ σ₂ := by
    intro j k σ h R
    induction R with
    | zero => exact absurd h (Nat.not_lt_zero _)
    | succ R S ih =>
      obtain h | rfl := Nat.lt_succ_iff_lt_or_eq.1 h
      · exact ih h
      · exact ⟨_, _, R, S⟩
  obtain h | h | h := lt_trichotomy k k'
  · obtain ⟨a, b, R, S⟩ := split h H'
    obtain rfl := H.unique hc h0 R
    exact (S.not_finish hc (H.sound h0) F).elim
  · subst h
    obtain rfl := H.unique hc h0 H'
    exact ⟨rfl, F.unique hc (H.sound h0) F'⟩
  · obtain ⟨a, b, R, S⟩ := split h H
    obtain rfl := H'.unique hc h0 R
    exact (S.not_finish hc (H'.sound h0) F').elim

end Radau5
end
end Spec
end Cyphus
