import Verif.Proofs.DP5Stale
import Verif.Props.DP5Exact
import Verif.Props.Stats
/-!
# C50: a callback that changes `u` leaves a stale derivative
-/

namespace Cyphus
open X
set_option linter.unusedSectionVars false
set_option autoImplicit false
noncomputable section
variable {n : ℕ} {P : Type} {E : DP5.Env n} {b : Builder X n P} {t0 : ℝ} {u0 : Fin n → ℝ}
  {s0 : DP5.St X n P}

/-- The callback replaces `u` by `g t u` and does nothing else. -/
def ChangesU (cb : Callback (DP5.alg : Algorithm X n P)) (g : ℝ → (Fin n → ℝ) → Fin n → ℝ) : Prop :=
  ∀ s t u, s.t = fin t → s.u = fv u → cb s = { s with u := fv (g t u) }

/-- **C50** With a callback that replaces `u` by `g t u` after each step, the step after the recorded point `(t, w)`
starts from `g t w` (from `w` for the first step, which no callback precedes) but uses `f t w` instead of
`f t (g t w)` as its first stage derivative. -/
theorem C50_stale_derivative_dp5 (H : DP5.Problem E b t0 u0) (hb : b.build DP5.alg = .ok s0)
    {cb : Callback (DP5.alg : Algorithm X n P)} {g : ℝ → (Fin n → ℝ) → Fin n → ℝ} (hg : ChangesU cb g)
    {k : ℕ} {s : DP5.St X n P} (hs : Steps DP5.alg (some cb) k s0 s) :
    ∃ l, Recorded s.sol l ∧ l.head? = some (t0, u0) ∧ l.length = k + 1 ∧
      ∀ i (hi : i + 1 < l.length), ∃ h, (l[i + 1]).1 = (l[i]).1 + h ∧
        Spec.IsStepFrom Spec.dopri5 E.f (l[i]).1 (if i = 0 then (l[i]).2 else g (l[i]).1 (l[i]).2) h
          (E.f (l[i]).1 (l[i]).2) (l[i + 1]).2 := by
  have key : ∃ l t w h, DP5.GoodS E s t (if k = 0 then w else g t w) h (E.f t w) ∧ Recorded s.sol l ∧
      l.head? = some (t0, u0) ∧ l.length = k + 1 ∧ l.getLast? = some (t, w) ∧
      ∀ i (hi : i + 1 < l.length), ∃ h, (l[i + 1]).1 = (l[i]).1 + h ∧
        Spec.IsStepFrom Spec.dopri5 E.f (l[i]).1 (if i = 0 then (l[i]).2 else g (l[i]).1 (l[i]).2) h
          (E.f (l[i]).1 (l[i]).2) (l[i + 1]).2 := by
    clear * - H hb hs hg
    induction k generalizing s with
    | zero =>
      obtain rfl := Steps.zero_eq rfl hs
      obtain ⟨G, -, -, h1, h2, -⟩ := H.build hb
      exact ⟨[(t0, u0)], t0, u0, 1e-6, G.toS, ⟨by simp [h1], by simp [h2]⟩, rfl, rfl, rfl,
        fun i hi => by simp at hi⟩
    | succ k ih =>
      obtain ⟨s1, o, h1, h2⟩ := Steps.cases_snoc hs
      obtain ⟨l, t, w, h, G, hl, hh, hlen, hlast, hc⟩ := ih h1
      obtain ⟨o1, s2, h3, h4, -⟩ := (C49_callback_runs_after_step DP5.alg cb s1 s o).1 h2
      obtain ⟨⟨fuel, h3⟩, -⟩ := stepReturns_none_iff.1 h3
      obtain ⟨d, h', j, G', sp⟩ := G.step h3
      have h4 : s = { s2 with u := fv (g (t + d) (DP5.unewS E.f t (if k = 0 then w else g t w) d (E.f t w))) } := by
        rw [h4, applyCallback, hg s2 _ _ G'.num.t G'.num.u]
      refine ⟨l ++ [(t + d, DP5.unewS E.f t (if k = 0 then w else g t w) d (E.f t w))], t + d, _, h', ?_, ⟨?_, ?_⟩,
        ?_, by simp [hlen], List.getLast?_concat, ?_⟩
      · rw [h4]
        refine ⟨⟨G'.num.t, by simp, G'.num.dt, G'.num.du, G'.num.rhs⟩, G'.tol, G'.ctl, G'.tdir, G'.tfinal, G'.dim⟩
      · rw [h4]
        change s2.sol.ts = _
        rw [sp.ts, hl.1, G'.num.t]; simp
      · rw [h4]
        change s2.sol.us = _
        rw [sp.us, hl.2, G'.num.u]; simp
      · rw [List.head?_append, hh]; rfl
      · intro i hi
        rw [List.length_append, List.length_singleton, hlen] at hi
        rcases Nat.lt_or_ge (i + 1) (k + 1) with hi' | hi'
        · obtain ⟨d', e1, e2⟩ := hc i (by omega)
          refine ⟨d', ?_, ?_⟩
          · rw [List.getElem_append_left (by omega), List.getElem_append_left (by omega)]; exact e1
          · rw [List.getElem_append_left (by omega), List.getElem_append_left (by omega)]; exact e2
        · obtain rfl : i = k := by omega
          have hl' : l[i]'(by omega) = (t, w) := by
            rw [List.getLast?_eq_getElem?, hlen] at hlast
            obtain ⟨_, e⟩ := List.getElem?_eq_some_iff.1 hlast
            exact e
          have ea : (l ++ [(t + d, DP5.unewS E.f t (if i = 0 then w else g t w) d (E.f t w))])[i]'(by simp; omega) = (t, w) := by
            rw [List.getElem_append_left (by omega)]; exact hl'
          have eb : (l ++ [(t + d, DP5.unewS E.f t (if i = 0 then w else g t w) d (E.f t w))])[i + 1]'(by simp; omega) = (t + d, DP5.unewS E.f t (if i = 0 then w else g t w) d (E.f t w)) := by
            rw [List.getElem_append_right (by omega)]; simp [hlen]
          refine ⟨d, ?_, ?_⟩
          · rw [ea, eb]
          · rw [ea, eb]
            exact DP5.isStepFrom E.f t (if i = 0 then w else g t w) d (E.f t w)
  obtain ⟨l, t, w, h, -, h1, h2, h3, -, h4⟩ := key
  exact ⟨l, h1, h2, h3, h4⟩

/-- **C50** Such a step is a Dormand-Prince step from `v` when the stored derivative is the one at `v`. -/
theorem C50_correct_if (f : ℝ → (Fin n → ℝ) → Fin n → ℝ) (t : ℝ) (v : Fin n → ℝ) (h : ℝ) (u' : Fin n → ℝ) :
    Spec.IsStepFrom Spec.dopri5 f t v h (f t v) u' ↔ Spec.IsStep Spec.dopri5 f t v h u' := by
  have e : ∀ k, Spec.IsStagesFrom Spec.dopri5 f t v h (f t v) k ↔ Spec.IsStages Spec.dopri5 f t v h k := by
    intro k
    have e0 : f (t + Spec.dopri5.c 0 * h) (fun m => v m + h * ∑ j, Spec.dopri5.A 0 j * k j m) = f t v := by
      simp [Spec.dopri5, Fin.sum_univ_seven]
    constructor
    · rintro ⟨h0, h1⟩ i
      by_cases hi : i = 0
      · subst hi; rw [h0, e0]
      · exact h1 i hi
    · intro hk
      exact ⟨by rw [hk 0, e0], fun i _ => hk i⟩
  simp only [Spec.IsStepFrom, Spec.IsStep, e]

/-- **C50** A falling ball, `(x, v)' = (v, -G)`: if a callback changes the velocity from `w 1` to `v 1`, the position
after the next step is wrong by `35/384 h (w 1 - v 1)`. (Its exact value after time `h` is
`v 0 + h v 1 - G h^2 / 2`, which the method would reproduce with the right derivative.) -/
theorem C50_ball_position (G t h : ℝ) (v w u' : Fin 2 → ℝ)
    (hs : Spec.IsStepFrom Spec.dopri5 (fun _ u => ![u 1, -G]) t v h ![w 1, -G] u') :
    u' 0 = (v 0 + h * v 1 - G * h ^ 2 / 2) + 35 / 384 * h * (w 1 - v 1) ∧ u' 1 = v 1 - G * h := by
  obtain ⟨k, ⟨hk0, hk⟩, hu⟩ := hs
  have h1 : ∀ j, k j 1 = -G := by
    intro j
    by_cases hj : j = 0
    · subst hj; rw [hk0]; rfl
    · rw [hk j hj]; rfl
  have h0 : ∀ j, j ≠ 0 → k j 0 = v 1 - h * G * ∑ i, Spec.dopri5.A j i := by
    intro j hj
    rw [hk j hj]
    simp only [h1, Matrix.cons_val_zero, ← Finset.sum_mul]
    ring
  have h00 : k 0 0 = w 1 := by rw [hk0]; rfl
  constructor
  · rw [hu 0]
    simp only [Fin.sum_univ_seven, h00, h0 1 (by decide), h0 2 (by decide), h0 3 (by decide), h0 4 (by decide),
      h0 5 (by decide), h0 6 (by decide)]
    simp only [Spec.dopri5, Matrix.cons_val]
    ring
  · rw [hu 1]
    simp only [h1, ← Finset.sum_mul]
    simp only [Spec.dopri5, Fin.sum_univ_seven, Matrix.cons_val]
    ring

/-- A bouncing ball with a callback that reverses the velocity satisfies the hypotheses. -/
example : ∃ (E : DP5.Env 2) (b : Builder X 2 Unit) (s0 : DP5.St X 2 Unit) (cb : Callback (DP5.alg : Algorithm X 2 Unit))
    (g : ℝ → (Fin 2 → ℝ) → Fin 2 → ℝ), DP5.Problem E b 0 ![1, 0] ∧ b.build DP5.alg = .ok s0 ∧ ChangesU cb g ∧
    E.f = (fun _ u => ![u 1, -9.81]) ∧ g = fun _ u => ![u 0, -u 1] := by
  refine ⟨_, Builder.default DP5.alg (fun _ _ u _ => ![u 1, fin (-9.81)]) (fv ![1, 0]) (fin 0, fin 1) (), _,
    fun s => { s with u := ![s.u 0, -s.u 1] }, _,
    DP5.default_problem two_ne_zero (f := fun _ u => ![u 1, -9.81]) ?_ 0 1 _, rfl, ?_, rfl, rfl⟩
  · intro _ t u; funext i; fin_cases i <;> rfl
  · intro s t u ht hu
    simp only
    congr 1
    funext i
    rw [hu]
    fin_cases i <;> rfl

end
end Cyphus
