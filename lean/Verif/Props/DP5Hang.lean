import Verif.Spec.NaN
import Verif.Props.DP5Exact
/-!
# C14: `DormandPrince5` steps that never return
-/

namespace Cyphus
open X
set_option linter.unusedSectionVars false
set_option autoImplicit false

section
variable {F : Type} {n : Nat} {P : Type}
  [Add F] [Sub F] [Mul F] [Div F] [Neg F] [OfScientific F] [Fl F] [FlInf F]

theorem sumLoop_nan {N : F → Prop} (L : NaNLaws N) (init : F) (f : Fin n → F) (i : Fin n) (h : N (f i)) :
    N (sumLoop n init f) := by
  unfold sumLoop
  have key : ∀ (l : List (Fin n)) (a : F), (N a ∨ i ∈ l) → N (l.foldl (fun acc i => acc + f i) a) := by
    intro l
    induction l with
    | nil => intro a ha; simpa using ha
    | cons x l ih =>
      intro a ha
      refine ih _ ?_
      rcases ha with ha | ha
      · exact .inl (L.add_left _ ha)
      · rcases List.mem_cons.1 ha with rfl | ha
        · exact .inl (L.add_right _ h)
        · exact .inr ha
  exact key _ _ (.inr (List.mem_finRange i))

/-- If no attempt made in the call has an error `<= 1`, the call does not return. -/
theorem DP5.attemptLoop_hangs (I : DP5.St F n P → Prop) (h1 : ∀ s, I s → Fl.le (DP5.errOf s) 1.0 = false)
    (h2 : ∀ s, I s → I (DP5.retry s)) : ∀ (fuel : Nat) (s : DP5.St F n P), I s →
    DP5.attemptLoop fuel s = .timeout := by
  intro fuel
  induction fuel with
  | zero => intro s _; rfl
  | succ f ih =>
    intro s hs
    rw [DP5.attemptLoop_succ, h1 s hs]
    exact ih _ (h2 s hs)

theorem DP5.step_hangs (cb : Option (Callback (DP5.alg : Algorithm F n P))) (I : DP5.St F n P → Prop)
    (h0 : ∀ s, I s → I (DP5.clampLast s)) (h1 : ∀ s, I s → Fl.le (DP5.errOf s) 1.0 = false)
    (h2 : ∀ s, I s → I (DP5.retry s)) (fuel : Nat) (s : DP5.St F n P) (hs : I s) :
    Integ.step DP5.alg cb fuel s = .timeout := by
  simp only [Integ.step, DP5.step]
  rw [DP5.attemptLoop_hangs I h1 h2 fuel _ (h0 s hs)]
  rfl

/-- **C14** If some component of the right-hand side is always NaN, `step()` of DormandPrince5 never returns,
in no state and for no options (any arithmetic in which NaN behaves like NaN). -/
theorem C14_nan_never_returns_dp5 {N : F → Prop} (L : NaNLaws N)
    (cb : Option (Callback (DP5.alg : Algorithm F n P))) (s : DP5.St F n P) (i : Fin n)
    (hn : ∀ buf u t, N (s.dudt s.params buf u t i)) (fuel : Nat) :
    Integ.step DP5.alg cb fuel s = .timeout := by
  refine DP5.step_hangs cb (fun s => ∀ buf u t, N (s.dudt s.params buf u t i)) ?_ ?_ ?_ fuel s hn
  · intro s h
    rw [(DP5.Frame.clampLast s).dudt, (DP5.Frame.clampLast s).params]
    exact h
  · intro s h
    refine L.le _ (L.sqrt (L.div_left _ (sumLoop_nan L _ _ i ?_)))
    refine L.mul_left _ (L.div_left _ ?_)
    exact L.mul_right _ (L.add_right _ (L.mul_right _ (h _ _ _)))
  · intro s h
    rw [DP5.retry_dudt, DP5.retry_params]
    exact h

/-- **C14** The same for systems of dimension zero: no `step()` returns, whatever the right-hand side. -/
theorem C14_dimension_zero_never_returns_dp5 {N : F → Prop} (L : NaNLaws N)
    (cb : Option (Callback (DP5.alg : Algorithm F 0 P))) (s : DP5.St F 0 P) (fuel : Nat) :
    Integ.step DP5.alg cb fuel s = .timeout := by
  refine DP5.step_hangs cb (fun _ => True) (fun _ _ => trivial) ?_ (fun _ _ => trivial) fuel s trivial
  intro s _
  exact L.le _ (L.sqrt L.zero_div_zero)

/-- **C14** Consequently `integrate()` does not return either. -/
theorem C14_integrate_never_returns_dp5 {N : F → Prop} (L : NaNLaws N)
    (cb : Option (Callback (DP5.alg : Algorithm F n P))) (s : DP5.St F n P)
    (hn : n = 0 ∨ ∃ i, ∀ buf u t, N (s.dudt s.params buf u t i)) (fuel : Nat) :
    Integ.integrate DP5.alg cb fuel s = .timeout := by
  cases fuel with
  | zero => rfl
  | succ f =>
    have : Integ.step DP5.alg cb (f + 1) s = .timeout := by
      rcases hn with rfl | ⟨i, hn⟩
      · exact C14_dimension_zero_never_returns_dp5 L cb s _
      · exact C14_nan_never_returns_dp5 L cb s i hn _
    rw [Integ.integrate, this]
    rfl

end

/-- NaN of the extended reals satisfies the laws. -/
theorem X.nanLaws : NaNLaws (fun x : X => x = nan) where
  add_left := by rintro _ b rfl; rfl
  add_right := by rintro (_ | _ | _ | _) _ rfl <;> rfl
  mul_left := by rintro _ b rfl; rfl
  mul_right := by rintro (_ | _ | _ | _) _ rfl <;> rfl
  div_left := by rintro _ b rfl; rfl
  sqrt := by rintro _ rfl; rfl
  le := by rintro _ b rfl; rfl
  zero_div_zero := by
    rw [X.sci, X.ofNat_fin, Nat.cast_zero, X.div_fin_zero]
    unfold X.infSign
    norm_num

/-- A right-hand side with a NaN component in an otherwise ordinary problem. -/
example : ∃ s : DP5.St X 2 Unit, (Builder.default DP5.alg (fun _ _ u _ => fun i => if i = 0 then X.nan else u i)
    (fv fun _ => 1) (fin 0, fin 1) ()).build DP5.alg = .ok s ∧
    ∀ fuel, Integ.integrate DP5.alg none fuel s = .timeout := by
  refine ⟨_, rfl, fun fuel => C14_integrate_never_returns_dp5 X.nanLaws none _ (.inr ⟨0, fun _ _ _ => rfl⟩) fuel⟩

noncomputable section
variable {n : ℕ} {P : Type}

/-- **C14** The exit for too small steps is ineffective: with such a right-hand side the code `DtLessThanMin` gets
stored (after some number of attempts, and it stays), but the loop goes on: `DP5.Rejs j a b` says that `j` more
attempts are made and rejected, from the loop state `a` to the loop state `b`. -/
theorem C14_dt_less_than_min_ineffective_dp5 {s : DP5.St X n P} {sf fl fr be : ℝ} {mx : Option ℝ}
    (C : DP5.Ctl s.opts sf fl fr be mx) (h1 : fl < 1) (hx : DP5.expo be ≠ 0) {t h : ℝ} (ht : s.t = fin t)
    (ht0 : t ≠ 0) (hh : s.dt = fin h) (i : Fin n) (hn : ∀ buf u t, s.dudt s.params buf u t i = nan) :
    ∃ k, ∀ j ≥ k, ∃ s', DP5.Rejs j s s' ∧ s'.sol.retcode = .DtLessThanMin := by
  have err : ∀ s : DP5.St X n P, (∀ buf u t, s.dudt s.params buf u t i = nan) → DP5.errOf s = nan := by
    intro s h
    have L := X.nanLaws
    refine L.sqrt (L.div_left _ (sumLoop_nan L _ _ i ?_))
    refine L.mul_left _ (L.div_left _ ?_)
    exact L.mul_right _ (L.add_right _ (L.mul_right _ (h _ _ _)))
  have one : ∀ (s : DP5.St X n P) (h : ℝ), DP5.Ctl s.opts sf fl fr be mx → s.dt = fin h →
      (∀ buf u t, s.dudt s.params buf u t i = nan) → (DP5.retry s).dt = fin (fl * h) := by
    intro s h C hh hn
    rw [DP5.retry_dt, err s hn, C.facl, C.safe, DP5.inv_fin C C.facl_pos, hh]
    have : DP5.fac11 s.opts nan = nan := by
      unfold DP5.fac11
      rw [C.beta, X.sci, X.sci, powf_nonneg C.beta_nonneg (by norm_num), sub_fin]
      change powX nan (fin (DP5.expo be)) = nan
      unfold powX
      rw [if_neg]
      simp [hx]
    rw [this]
    change fin h / fin (1 / fl) = _
    rw [div_fin (by have := C.facl_pos; positivity)]
    congr 1; field_simp
  have key : ∀ (j : ℕ) (s : DP5.St X n P) (h : ℝ), DP5.Ctl s.opts sf fl fr be mx → s.dt = fin h → s.t = fin t →
      (∀ buf u t, s.dudt s.params buf u t i = nan) →
      ∃ s', DP5.Rejs j s s' ∧ s'.dt = fin (fl ^ j * h) ∧ (j ≠ 0 → fl ^ j * |h| ≤ |t| * Fl.eps →
        s'.sol.retcode = .DtLessThanMin) := by
    intro j
    induction j with
    | zero => intro s h C hh _ _; exact ⟨s, .zero s, by simp [hh], by simp⟩
    | succ j ih =>
      intro s h C hh ht hn
      have hr := one s h C hh hn
      obtain ⟨s', h1, h2, h3⟩ := ih (DP5.retry s) (fl * h) (by simpa using C) hr (by simpa using ht)
        (by simpa using hn)
      refine ⟨s', .succ (X.nanLaws.le _ (err s hn)) h1, by rw [h2, pow_succ, mul_assoc], ?_⟩
      intro _ hle
      have hle' : fl ^ j * |fl * h| ≤ |t| * Fl.eps := by
        rw [abs_mul, abs_of_pos C.facl_pos, ← mul_assoc, ← pow_succ]; exact hle
      by_cases hj : j = 0
      · subst hj
        cases h1
        rw [DP5.retry_retcode, if_pos]
        rw [hr, ht, abs_fin, abs_fin, eps_fin, mul_fin, le_fin]
        simpa using hle'
      · exact h3 hj hle'
  obtain ⟨k, hk⟩ : ∃ k : ℕ, fl ^ k * |h| ≤ |t| * Fl.eps := by
    have he : 0 < |t| * Fl.eps := by have := RealFl.eps_pos; positivity
    obtain ⟨k, hk⟩ := exists_pow_lt_of_lt_one (show 0 < |t| * Fl.eps / (|h| + 1) by positivity) h1
    refine ⟨k, ?_⟩
    rw [lt_div_iff₀ (by positivity)] at hk
    nlinarith [pow_pos C.facl_pos k]
  refine ⟨k + 1, fun j hj => ?_⟩
  obtain ⟨s', h2, -, h3⟩ := key j s h C hh ht hn
  refine ⟨s', h2, h3 (by omega) (le_trans ?_ hk)⟩
  gcongr ?_ * |h|
  exact pow_le_pow_of_le_one C.facl_pos.le h1.le (by omega)

end
end Cyphus
