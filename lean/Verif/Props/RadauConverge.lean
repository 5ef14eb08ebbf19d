import Verif.Proofs.RadauNewton
import Verif.Proofs.RadauConsts
import Verif.Props.RadauStart
import Verif.Props.RadauControl
import Verif.Props.RadauStability
import Verif.Props.Convergence
/-!
# C77: convergence of Radau5 on nonlinear problems
-/

namespace Cyphus
open X Set
set_option autoImplicit false
set_option linter.unusedSectionVars false
noncomputable section

variable {n : ℕ} {P : Type}

/-! ### One step -/

/-- If the increments `z` satisfy the equations of the method up to `ρ`, the error at the end of the step is bounded by the error
at the beginning, the local error `K (h^6 + 1e-16 h^2)`, and `ρ`. (The nodes and coefficients are those in the code, which satisfy
the order conditions up to `1e-16` only.) -/
def Spec.RadauLocal (f : ℝ → (Fin n → ℝ) → Fin n → ℝ) (t0 tf : ℝ) (y : ℝ → Fin n → ℝ) (R M L K h1 : ℝ) : Prop :=
  ∀ t h u (z : Fin 3 → Fin n → ℝ) ρ, t0 ≤ t → 0 ≤ h → t + h ≤ tf → h ≤ h1 → (∀ k, ‖u + z k‖ ≤ R + 2) →
    (∀ k, ‖z k - h • ∑ l, Radau.codeTransform.A k l • f (t + Radau.codeC l * h) (u + z l)‖ ≤ ρ) →
    ‖u + z 2 - y (t + h)‖ ≤ (1 + 2 * L * h) * ‖u - y t‖ + K * (h ^ 6 + 1e-16 * h ^ 2) + 1e-16 * h * M + 2 * ρ

theorem radau_local {f : ℝ → (Fin n → ℝ) → Fin n → ℝ} {t0 tf R M L : ℝ} {y : ℝ → Fin n → ℝ}
    (hf : ContDiff ℝ 5 (Function.uncurry f)) (ht : t0 < tf) (hy : Spec.IsSolution f t0 tf y)
    (HB : Spec.Bounded f t0 tf y R M L) : ∃ K ≥ 0, ∃ h1 > 0, Spec.RadauLocal f t0 tf y R M L K h1 := by
  obtain ⟨S⟩ := Conv.exists_setup hf ht hy
  exact HB.conv.radau_step S Radau.code_method (fun t ht => by
    rw [add_sub_cancel_right]; exact (pi_norm_le_iff_of_nonneg HB.R0).2 (HB.sol t ht))

/-- The error after one step made with at least `m` passes of the Newton iteration. -/
theorem radau_one {f : ℝ → (Fin n → ℝ) → Fin n → ℝ} {t0 tf R M L B Z0 C1 h1 : ℝ} {y : ℝ → Fin n → ℝ}
    (HB : Spec.Bounded f t0 tf y R M L) (C10 : 0 ≤ C1) (H1 : Spec.RadauLocal f t0 tf y R M L C1 h1)
    (hB : 0 ≤ B) (hZ0 : 0 ≤ Z0) {m : ℕ} (hm : 1 ≤ m) (hm5 : m ≤ 5)
    (J : Fin n → Fin n → ℝ) (t h : ℝ) (u : Fin n → ℝ) (y₀ : Fin 3 → Fin n → ℝ) (j : ℕ)
      (g yy Δ z : Fin 3 → Fin n → ℝ)
    (hJ : ∀ i, ∑ j, |J i j| ≤ B) (i1 : t0 ≤ t) (i2 : 0 ≤ h) (i3 : t + h ≤ tf)
    (i4 : h ≤ min (min h1 (Conv.newtonH L M B Z0)) (1 / (1 + C1 + 2 * Conv.newtonK m L M B Z0))) (hu : ‖u - y t‖ ≤ 1)
    (hr : Spec.NewtonRun Radau.codeTransform Radau.codeC f J t h h u y₀ j g yy)
    (hp : Spec.NewtonPass Radau.codeTransform Radau.codeC f J t h h u g yy Δ z) (hy₀ : ‖y₀‖ ≤ Z0 * h) (hj : m ≤ j + 1) :
      ‖z‖ ≤ 225 * (15 * M + B) * h ∧
      ‖u + z 2 - y (t + h)‖ ≤ (1 + 2 * L * h) * ‖u - y t‖ +
        h * ((C1 + 2 * Conv.newtonK m L M B Z0) * h ^ m + 1e-16 * (M + 1)) := by
  have hyR : ∀ t ∈ Icc t0 tf, ‖y t‖ ≤ R := fun t ht => (pi_norm_le_iff_of_nonneg HB.R0).2 (HB.sol t ht)
  obtain ⟨C20, h20, H2⟩ := Conv.newton_final (N := Radau.codeTransform) (c := Radau.codeC) Radau.code_bounds
    (by norm_num) HB.conv hB hZ0 hm
  obtain ⟨C2, hC2⟩ : ∃ C, C = Conv.newtonK m L M B Z0 := ⟨_, rfl⟩
  rw [← hC2] at C20 H2 i4 ⊢
  simp only [le_min_iff] at i4
  obtain ⟨⟨g1, g2⟩, g3⟩ := i4
  rw [le_div_iff₀ (by positivity)] at g3
  have hu' : ‖u‖ ≤ R + 2 - 1 := by
    have := norm_add_le (u - y t) (y t)
    rw [sub_add_cancel] at this
    linarith [hyR t ⟨i1, by linarith⟩]
  obtain ⟨e1, e2, e3⟩ := H2 J t h u y₀ j g yy Δ z hJ i1 i2 i3 g2 hu' hr hp hy₀ hj
  refine ⟨e1, (H1 t h u z _ i1 i2 i3 g1 e2 e3).trans ?_⟩
  have l1 : h ≤ 1 := by nlinarith
  have p1 : h ^ 6 ≤ h ^ (m + 1) := pow_le_pow_of_le_one i2 l1 (by omega)
  have p2 : h ^ (m + 1) = h * h ^ m := by ring
  have p3 : C1 * h ^ 6 ≤ C1 * (h * h ^ m) := by rw [← p2]; exact mul_le_mul_of_nonneg_left p1 C10
  have p4 : (C1 + 2 * C2) * h ^ 2 ≤ h := by
    have : (C1 + 2 * C2) * h ≤ 1 := by nlinarith
    nlinarith
  rw [p2]
  generalize h ^ m = X at *
  have e : (1 + 2 * L * h) * ‖u - y t‖ + C1 * (h ^ 6 + 1e-16 * h ^ 2) + 1e-16 * h * M + 2 * (C2 * (h * X + 1e-16 * h ^ 2)) =
    (1 + 2 * L * h) * ‖u - y t‖ + (C1 * h ^ 6 + 2 * C2 * (h * X)) + 1e-16 * ((C1 + 2 * C2) * h ^ 2) + 1e-16 * h * M := by ring
  have e' : h * ((C1 + 2 * C2) * X + 1e-16 * (M + 1)) = C1 * (h * X) + 2 * C2 * (h * X) + 1e-16 * h + 1e-16 * h * M := by ring
  rw [e, e']
  linarith

/-! ### The values the iteration starts with -/

/-- The memory of the step before: nothing, or the coefficients of the polynomial, which are small. -/
def Radau.Prev (K Q : ℝ) (s : Radau.St X n P) : Prop :=
  s.cache.first = true ∨ ∃ (hp h' : ℝ) (κ1 κ2 κ3 : _root_.Fin n → ℝ), 0 < hp ∧ s.dtprev = fin hp ∧ s.dt = fin h' ∧ h' ≤ Q * hp ∧
    s.cache.cont1 = fv κ1 ∧ s.cache.cont2 = fv κ2 ∧ s.cache.cont3 = fv κ3 ∧
    ∀ i, |κ1 i| ≤ K * hp ∧ |κ2 i| ≤ K * hp ∧ |κ3 i| ≤ K * hp

theorem abs_div_le {a b c d : ℝ} (hb : 0 < d) (hd : d ≤ |b|) (ha : |a| ≤ c) : |a / b| ≤ c / d := by
  rw [abs_div]
  have := (abs_nonneg a).trans ha
  gcongr

theorem cont_bounds {z : Fin 3 → Fin n → ℝ} {Z : ℝ} (hz : ‖z‖ ≤ Z) (i : Fin n) :
    |(z 1 i - z 2 i) / Radau.C2M1| ≤ 30 * Z ∧
    |((z 0 i - z 1 i) / Radau.C1MC2 - (z 1 i - z 2 i) / Radau.C2M1) / Radau.C1M1| ≤ 30 * Z ∧
    |((z 0 i - z 1 i) / Radau.C1MC2 - (z 1 i - z 2 i) / Radau.C2M1) / Radau.C1M1 -
      ((z 0 i - z 1 i) / Radau.C1MC2 - z 0 i / Radau.C1) / Radau.C2| ≤ 30 * Z := by
  have hk : ∀ k, |z k i| ≤ Z := fun k => (norm_le_pi_norm (z k) i).trans ((norm_le_pi_norm z k).trans hz)
  have Z0 : 0 ≤ Z := (abs_nonneg _).trans (hk 0)
  have sub : ∀ {a b A B : ℝ}, |a| ≤ A → |b| ≤ B → |a - b| ≤ A + B := fun h1 h2 => (abs_sub _ _).trans (add_le_add h1 h2)
  have c1 : (0.35 : ℝ) ≤ |Radau.C2M1| := by rw [abs_of_neg] <;> unfold Radau.C2M1 <;> norm_num
  have c2 : (0.48 : ℝ) ≤ |Radau.C1MC2| := by rw [abs_of_neg] <;> unfold Radau.C1MC2 <;> norm_num
  have c3 : (0.15 : ℝ) ≤ |Radau.C1| := by rw [abs_of_pos] <;> unfold Radau.C1 <;> norm_num
  have c4 : (0.64 : ℝ) ≤ |Radau.C2| := by rw [abs_of_pos] <;> unfold Radau.C2 <;> norm_num
  have c5 : (0.84 : ℝ) ≤ |Radau.C1M1| := by rw [abs_of_neg] <;> unfold Radau.C1M1 <;> norm_num
  have b1 := abs_div_le (by norm_num) c1 (sub (hk 1) (hk 2))
  have b2 := abs_div_le (by norm_num) c2 (sub (hk 0) (hk 1))
  have b3 := abs_div_le (by norm_num) c5 (sub b2 b1)
  have b4 := sub b3 (abs_div_le (by norm_num) c4 (sub b2 (abs_div_le (by norm_num) c3 (hk 0))))
  norm_num at b1 b3 b4
  refine ⟨b1.trans ?_, b3.trans ?_, b4.trans ?_⟩ <;> linarith

theorem start_bound {K Q : ℝ} (hK : 0 ≤ K) (hQ : 0 ≤ Q) {s : Radau.St X n P} (H : Radau.Prev K Q s) {h h1 : ℝ} (h0 : 0 < h)
    (hdt : s.dt = fin h1) (hle : h ≤ 1.0001 * h1) {y₀ : Fin 3 → Fin n → ℝ} (S : Radau.StartVals s h y₀) :
    ‖y₀‖ ≤ K * (1 + (2 * Q + 1) * (2 * Q + 2)) * h := by
  have hZ : 0 ≤ K * (1 + (2 * Q + 1) * (2 * Q + 2)) * h := by positivity
  refine (pi_norm_le_iff_of_nonneg hZ).2 fun k => (pi_norm_le_iff_of_nonneg hZ).2 fun i => ?_
  rw [Real.norm_eq_abs]
  unfold Radau.StartVals at S
  split at S
  · rw [S k i, abs_zero]; exact hZ
  rename_i hc
  obtain hf | ⟨hp, h', κ1, κ2, κ3, hp0, e1, e2, q, k1, k2, k3, hk⟩ := H
  · simp [hf] at hc
  obtain ⟨hp', μ1, μ2, μ3, e3, -, m1, m2, m3, hy⟩ := S
  obtain rfl : hp' = hp := fin_inj.1 (e3.symm.trans e1)
  obtain rfl : μ1 = κ1 := Radau.fv_inj (m1.symm.trans k1)
  obtain rfl : μ2 = κ2 := Radau.fv_inj (m2.symm.trans k2)
  obtain rfl : μ3 = κ3 := Radau.fv_inj (m3.symm.trans k3)
  obtain rfl : h1 = h' := fin_inj.1 (hdt.symm.trans e2)
  obtain ⟨b1, b2, b3⟩ := hk i
  have hx0 : |Radau.codeC k * (h / hp')| ≤ h / hp' := by
    have hp1 : 0 < h / hp' := by positivity
    have : |Radau.codeC k| ≤ 1 := by
      rw [abs_le]
      fin_cases k <;> simp [Radau.codeC, Radau.C1, Radau.C2] <;> norm_num
    rw [abs_mul, abs_of_pos hp1]
    exact mul_le_of_le_one_left hp1.le this
  have hx1 : h / hp' ≤ 2 * Q := by
    rw [div_le_iff₀ hp0]
    have : 0 ≤ Q * hp' := by positivity
    linarith
  obtain ⟨x, hx⟩ : ∃ x, x = Radau.codeC k * (h / hp') := ⟨_, rfl⟩
  rw [hy, ← hx]
  rw [← hx] at hx0
  simp only [Spec.contr5, Matrix.cons_val_zero, Matrix.cons_val_one, Matrix.cons_val, zero_add]
  have c1 : |x - (Radau.C2 - 1)| ≤ 2 * Q + 1 := by
    refine (abs_sub _ _).trans (add_le_add (hx0.trans hx1) ?_)
    rw [abs_le]; unfold Radau.C2; norm_num
  have c2 : |x - (Radau.C1 - 1)| ≤ 2 * Q + 1 := by
    refine (abs_sub _ _).trans (add_le_add (hx0.trans hx1) ?_)
    rw [abs_le]; unfold Radau.C1; norm_num
  have d1 : |μ2 i + (x - (Radau.C1 - 1)) * μ3 i| ≤ K * hp' + (2 * Q + 1) * (K * hp') := by
    refine (abs_add_le _ _).trans (add_le_add b2 ?_)
    rw [abs_mul]
    exact mul_le_mul c2 b3 (abs_nonneg _) (by positivity)
  have d2 : |μ1 i + (x - (Radau.C2 - 1)) * (μ2 i + (x - (Radau.C1 - 1)) * μ3 i)| ≤
      K * hp' + (2 * Q + 1) * (K * hp' + (2 * Q + 1) * (K * hp')) := by
    refine (abs_add_le _ _).trans (add_le_add b1 ?_)
    rw [abs_mul]
    exact mul_le_mul c1 d1 (abs_nonneg _) (by positivity)
  rw [abs_mul]
  calc _ ≤ h / hp' * (K * hp' + (2 * Q + 1) * (K * hp' + (2 * Q + 1) * (K * hp'))) :=
        mul_le_mul hx0 d2 (abs_nonneg _) (by positivity)
    _ = _ := by field_simp; ring

/-! ### The run -/

theorem Radau.proposal_le {C : Radau.Clock} (hm : ∀ m ∈ C.mx, 0 < m) (rej : Bool) (h q : ℝ) : |C.proposal rej h q| ≤ |h / q| := by
  have h0 : 0 ≤ Radau.capR C.mx (h / q) := by
    unfold Radau.capR
    cases hC : C.mx with
    | none => exact abs_nonneg _
    | some m => exact le_min (abs_nonneg _) (hm m hC).le
  have h1 : |C.d * Radau.capR C.mx (h / q)| ≤ |h / q| := by
    rw [abs_mul, abs_of_nonneg h0]
    have := Radau.capR_le (mx := C.mx) (y := h / q)
    obtain e | e := C.d_cases <;> rw [e] <;> simpa using this
  unfold Radau.Clock.proposal
  simp only
  split
  · rw [abs_mul, abs_of_nonneg (by positivity : (0:ℝ) ≤ min _ _)]
    have := (min_le_left |C.d * Radau.capR C.mx (h / q)| |h|).trans h1
    obtain e | e := C.d_cases <;> rw [e] at this ⊢ <;> simpa using this
  · exact h1

/-- In the run which starts with `s0` every accepted step was decomposed anew or has the size proposed by the step before. -/
def Radau.Undisturbed (s0 : Radau.St X n P) : Prop :=
  ∀ k s o s', SomeSteps Radau.alg none k s0 s → StepReturns Radau.alg none s o s' →
    s'.sol.retcode = .Continue ∨ s'.sol.retcode = .Success →
    s.stats.decompositions < s'.stats.decompositions ∨ s'.dtprev = s.dt

/-- In the run which starts with `s0` every accepted step was made with at least `m` passes of the Newton iteration. -/
def Radau.Passes (m : ℕ) (s0 : Radau.St X n P) : Prop :=
  ∀ k s o s', SomeSteps Radau.alg none k s0 s → StepReturns Radau.alg none s o s' →
    s'.sol.retcode = .Continue ∨ s'.sol.retcode = .Success → m ≤ s'.cache.newt

section run
variable {b : Builder X n P} {f : ℝ → (Fin n → ℝ) → Fin n → ℝ}
  {jac : ℝ → (Fin n → ℝ) → Fin n → Fin n → ℝ} {C : Radau.Clock} {s0 s s' : Radau.St X n P} {k : ℕ} {o : Option ℕ}

/-- The steps of an undisturbed forward run. -/
theorem radau_fwd (hn : n ≠ 0) {u0 : Fin n → ℝ} (R : Radau.RealProblem b f jac u0) (T : Radau.Timed C b) (hS : C.Sane)
    (ht : C.t0 ≤ C.tf) (hc : ∀ t u, Spec.FirstNotEigen (C.Sane ∧ C.t0 ≤ C.tf) (jac t u)) (hb : b.build Radau.alg = .ok s0)
    (hd : Radau.Undisturbed s0) (hs : SomeSteps Radau.alg none k s0 s) (h : StepReturns Radau.alg none s o s')
    (ha : s'.sol.retcode = .Continue ∨ s'.sol.retcode = .Success) :
    ∃ l, Recorded s.sol l ∧ ∃ t h u J g y Δ z,
      Radau.StepR (Radau.env f jac ⊤ u0) C (C.Sane ∧ C.t0 ≤ C.tf) t h h u J g y Δ z s s' ∧ (∃ p ∈ l, J = jac p.1 p.2) ∧
      0 < h ∧ t + h ≤ C.tf ∧ (∃ h1, s.dt = fin h1 ∧ h ≤ 1.0001 * h1) ∧
      (s'.sol.retcode = .Continue → ∃ h', s'.dt = fin h' ∧ h' ≤ 1 / C.fr * h) := by
  obtain ⟨l, hl, t, h1, u, J, g, y, Δ, z, S, hJ⟩ := radau_undisturbed R T hn hc hb hd hs h ha
  obtain ⟨hr, t', g1, hI⟩ := T.run hb hs
  obtain ⟨⟨fuel, hst⟩, -⟩ := stepReturns_none_iff.1 h
  obtain ⟨h2, h3, T'⟩ | hf := hI.run_step hr hst
  swap
  · obtain ha | ha := ha
    · exact absurd ha hf.1
    · exact absurd ha hf.2
  obtain rfl : t = t' := fin_inj.1 (S.time.symm.trans hI.time)
  obtain rfl : h1 = h2 := fin_inj.1 (S.dtprev.symm.trans T'.dtprev)
  obtain ⟨p0, p1⟩ := T'.pos ⟨hS, ht⟩
  obtain ⟨h4, e4, l4⟩ := hI.run_cap hr ⟨hS, ht⟩ hst ha
  obtain rfl : h1 = h4 := fin_inj.1 (S.dtprev.symm.trans e4)
  refine ⟨l, hl, t, h1, u, J, g, y, Δ, z, S, hJ, p0, p1, ⟨g1, hI.step, l4⟩, fun hcode => ⟨h3, T'.idle.step, ?_⟩⟩
  obtain ⟨q, rej, q1, -, -, q4⟩ := T'.next hcode
  have fr0 := T.ctl.facr_pos
  have d1 := T'.idle.dir ⟨hS, ht⟩
  have := (le_abs_self _).trans ((q4.le hS.quot1 (by rw [d1]; linarith)).trans (Radau.proposal_le T.ctl.dtmax_pos rej h1 q))
  refine this.trans ?_
  rw [abs_div, abs_of_pos p0, abs_of_pos (lt_of_lt_of_le fr0 q1), one_div, inv_mul_eq_div]
  gcongr

theorem exp_gronwall {L τ h κ e : ℝ} (hL : 0 ≤ L) (hτ : 0 ≤ τ) (h0 : 0 ≤ h) (hκ : 0 ≤ κ) (he : e ≤ τ * Real.exp (2 * L * τ) * κ) :
    (1 + 2 * L * h) * e + h * κ ≤ (τ + h) * Real.exp (2 * L * (τ + h)) * κ := by
  have e1 : Real.exp (2 * L * (τ + h)) = Real.exp (2 * L * τ) * Real.exp (2 * L * h) := by rw [← Real.exp_add]; ring_nf
  have e2 : 1 + 2 * L * h ≤ Real.exp (2 * L * h) := by linarith [Real.add_one_le_exp (2 * L * h)]
  have e3 : 1 ≤ Real.exp (2 * L * (τ + h)) := Real.one_le_exp (by positivity)
  have e4 := Real.exp_pos (2 * L * τ)
  calc _ ≤ Real.exp (2 * L * h) * (τ * Real.exp (2 * L * τ) * κ) + h * κ * Real.exp (2 * L * (τ + h)) := by
        refine add_le_add ?_ (le_mul_of_one_le_right (by positivity) e3)
        exact (mul_le_mul_of_nonneg_left he (by positivity)).trans (mul_le_mul_of_nonneg_right e2 (by positivity))
    _ = _ := by rw [e1]; ring

/-- The error of a run. -/
theorem radau_error (hn : n ≠ 0) {R M L B K Z Q h0 H κ : ℝ} {y : ℝ → Fin n → ℝ} {m : ℕ}
    (HR : Radau.RealProblem b f jac (y C.t0)) (T : Radau.Timed C b) (hS : C.Sane) (ht : C.t0 ≤ C.tf)
    (hc : ∀ t u, Spec.FirstNotEigen (C.Sane ∧ C.t0 ≤ C.tf) (jac t u)) (hb : b.build Radau.alg = .ok s0)
    (hd : Radau.Undisturbed s0) (hp : Radau.Passes m s0) (HB : Spec.Bounded f C.t0 C.tf y R M L)
    (hJ : ∀ t ∈ Icc C.t0 C.tf, ∀ u, (∀ i, |u i| ≤ R + 2) → ∀ i, ∑ j, |jac t u i j| ≤ B) (hK : 0 ≤ K) (hQ : 1 / C.fr ≤ Q)
    (hB : 0 ≤ B) (hZ : Z = 30 * (225 * (15 * M + B)) * (1 + (2 * Q + 1) * (2 * Q + 2)))
    (one : ∀ (J : Fin n → Fin n → ℝ) t h (u : Fin n → ℝ) (y₀ : Fin 3 → Fin n → ℝ) (j : ℕ)
      (g yy Δ z : Fin 3 → Fin n → ℝ),
      (∀ i, ∑ j, |J i j| ≤ B) → C.t0 ≤ t → 0 ≤ h → t + h ≤ C.tf → h ≤ h0 → ‖u - y t‖ ≤ 1 →
      Spec.NewtonRun Radau.codeTransform Radau.codeC f J t h h u y₀ j g yy →
      Spec.NewtonPass Radau.codeTransform Radau.codeC f J t h h u g yy Δ z → ‖y₀‖ ≤ Z * h → m ≤ j + 1 →
      ‖z‖ ≤ 225 * (15 * M + B) * h ∧
      ‖u + z 2 - y (t + h)‖ ≤ (1 + 2 * L * h) * ‖u - y t‖ + h * (K * h ^ m + 1e-16 * (M + 1)))
    (hH : H ≤ h0) (hκ : κ = K * H ^ m + 1e-16 * (M + 1)) (hH0 : 0 ≤ H)
    (htube : (C.tf - C.t0) * Real.exp (2 * L * (C.tf - C.t0)) * κ ≤ 1)
    (hs : (∃ k, SomeSteps Radau.alg none k s0 s) ∨ IntegrateReturns Radau.alg none s0 s) {l : List (ℝ × (Fin n → ℝ))}
    (hl : Recorded s.sol l) (hch : l.IsChain fun p q => q.1 - p.1 ≤ H) :
    ∀ p ∈ l, p.1 ∈ Icc C.t0 C.tf ∧ ‖p.2 - y p.1‖ ≤ (C.tf - C.t0) * Real.exp (2 * L * (C.tf - C.t0)) * κ := by
  have M0 := HB.M0
  have L0 := HB.L0
  have Q0 : 0 ≤ Q := le_trans (by have := T.ctl.facr_pos; positivity) hQ
  have κ0 : 0 ≤ κ := by rw [hκ]; positivity
  obtain ⟨Kz, hKz⟩ : ∃ Kz, Kz = 30 * (225 * (15 * M + B)) := ⟨_, rfl⟩
  have Kz0 : 0 ≤ Kz := by rw [hKz]; positivity
  rw [← hKz] at hZ
  have emono : ∀ {τ : ℝ}, 0 ≤ τ → τ ≤ C.tf - C.t0 →
      τ * Real.exp (2 * L * τ) * κ ≤ (C.tf - C.t0) * Real.exp (2 * L * (C.tf - C.t0)) * κ := by
    intro τ h1 h2
    gcongr
  let E : List (ℝ × (Fin n → ℝ)) → Prop := fun l => ∀ p ∈ l, p.1 ∈ Icc C.t0 C.tf ∧
    ‖p.2 - y p.1‖ ≤ (p.1 - C.t0) * Real.exp (2 * L * (p.1 - C.t0)) * κ
  let I : Radau.St X n P → Prop := fun s => ∃ l p, Recorded s.sol l ∧ l.getLast? = some p ∧ s.t = fin p.1 ∧ s.u = fv p.2 ∧
    (l.IsChain (fun p q => q.1 - p.1 ≤ H) → E l ∧ (s.sol.retcode = .Continue → Radau.Prev Kz Q s))
  have cont : ∀ {k : ℕ} {s : Radau.St X n P}, SomeSteps Radau.alg none k s0 s → s.sol.retcode = .Continue := fun hs =>
    (T.run hb hs).1.retcode
  have step : ∀ {k : ℕ} {s s' : Radau.St X n P} {o : Option ℕ}, SomeSteps Radau.alg none k s0 s →
      StepReturns Radau.alg none s o s' → I s → I s' := by
    rintro k s s' o hs h ⟨l, p, h1, h2, h3, h4, h5⟩
    have hrd := (Radau.run_opts hb hs).1
    obtain ⟨⟨fuel, hst⟩, -⟩ := stepReturns_none_iff.1 h
    obtain ⟨-, ha | hf⟩ := Radau.step_cases hrd hst
    swap
    · refine ⟨l, p, ⟨hf.frame.ts ▸ h1.1, hf.frame.us ▸ h1.2⟩, h2, hf.frame.t ▸ h3, hf.frame.u ▸ h4, fun hch => ⟨(h5 hch).1, ?_⟩⟩
      intro hcon
      rcases hf.retcode with e | e | e <;> rw [e] at hcon <;> cases hcon
    obtain ⟨l', hl', t, h', u, J, g, yy, Δ, z, S, ⟨pj, hpj, eJ⟩, p0, p1, ⟨g1, eg, lg⟩, hnext⟩ :=
      radau_fwd hn HR T hS ht hc hb hd hs h ha.retcode
    obtain rfl := h1.unique hl'
    obtain ⟨_, hi⟩ := S.idle.idle
    have et : t = p.1 := fin_inj.1 (S.time.symm.trans h3)
    have eu : u = p.2 := Radau.fv_inj (S.state.symm.trans h4)
    refine ⟨l ++ [(t + h', u + z 2)], (t + h', u + z 2), ⟨?_, ?_⟩, by simp, hi.time, S.next, fun hch => ?_⟩
    · rw [S.push.1, h1.1]; simp
    · rw [S.push.2, h1.2]; simp
    rw [List.isChain_append] at hch
    obtain ⟨hch, -, hlast⟩ := hch
    obtain ⟨hE, hprev⟩ := h5 hch
    have hH' : h' ≤ H := by
      have := hlast p h2 (t + h', u + z 2) rfl
      simp only [et] at this
      linarith
    have hpE := hE p (List.mem_of_getLast? h2)
    rw [← et, ← eu] at hpE
    obtain ⟨⟨pt0, ptf⟩, hpE⟩ := hpE
    have hJB : ∀ i, ∑ j, |J i j| ≤ B := by
      obtain ⟨q1, q2⟩ := hE pj hpj
      rw [eJ]
      refine hJ _ q1 _ fun i => ?_
      have a1 := (norm_le_pi_norm (pj.2 - y pj.1) i).trans (q2.trans ((emono (by linarith [q1.1]) (by linarith [q1.2])).trans htube))
      have a2 := HB.sol _ q1 i
      rw [Real.norm_eq_abs, Pi.sub_apply] at a1
      have a3 := abs_add_le (pj.2 i - y pj.1 i) (y pj.1 i)
      rw [sub_add_cancel] at a3
      linarith
    obtain ⟨y₀, j, st, run, c1, c2⟩ := S.count
    have hy₀ : ‖y₀‖ ≤ Z * h' := by
      rw [hZ]
      exact start_bound Kz0 Q0 (hprev (cont hs)) p0 eg lg st
    have hj : m ≤ j + 1 := by
      rw [← c1]; exact hp _ _ _ _ hs h ha.retcode
    obtain ⟨z1, z2⟩ := one J t h' u y₀ j g yy Δ z hJB pt0 p0.le p1 (hH'.trans hH)
      (hpE.trans ((emono (by linarith) (by linarith)).trans htube)) run S.pass hy₀ hj
    refine ⟨?_, fun hcon => .inr ?_⟩
    · intro q hq
      rcases List.mem_append.1 hq with hq | hq
      · exact hE q hq
      · simp only [List.mem_singleton] at hq
        subst hq
        refine ⟨⟨by simp only; linarith, p1⟩, z2.trans ?_⟩
        have hpow : h' ^ m ≤ H ^ m := pow_le_pow_left₀ p0.le hH' m
        have : h' * (K * h' ^ m + 1e-16 * (M + 1)) ≤ h' * κ := by
          rw [hκ]; gcongr
        have g := exp_gronwall L0 (by linarith : 0 ≤ t - C.t0) p0.le κ0 hpE
        rw [show t - C.t0 + h' = t + h' - C.t0 by ring] at g
        simp only
        linarith
    · obtain ⟨h3, e3, l3⟩ := hnext hcon
      refine ⟨h', h3, _, _, _, p0, S.dtprev, e3, l3.trans (mul_le_mul_of_nonneg_right hQ p0.le), S.cont1, S.cont2, S.cont3, fun i => ?_⟩
      have := cont_bounds z1 i
      rw [← mul_assoc, ← hKz] at this
      exact this
  have some : ∀ {k : ℕ} {s : Radau.St X n P}, SomeSteps Radau.alg none k s0 s → I s := by
    intro k s hs
    refine (SomeSteps.induct (alg := Radau.alg)
      (I := fun _ s => (∃ k, SomeSteps Radau.alg none k s0 s) ∧ I s) ?_ ?_ hs).2
    · refine ⟨⟨0, .zero (alg := Radau.alg) s0⟩, [(C.t0, y C.t0)], (C.t0, y C.t0), ?_, rfl, ?_, ?_, fun _ => ⟨?_, fun _ => .inl ?_⟩⟩
      · obtain ⟨h1, h2, -⟩ := Radau.build_fields hb
        exact ⟨by rw [h1, T.t]; rfl, by rw [h2, HR.u]; rfl⟩
      · rw [← Res.ok.inj hb]; exact T.t
      · rw [← Res.ok.inj hb]; exact HR.u
      · intro p hp
        simp only [List.mem_singleton] at hp
        subst hp
        refine ⟨⟨le_rfl, ht⟩, ?_⟩
        simp
      · rw [← Res.ok.inj hb]
    · rintro k s o s' ⟨⟨k, h0⟩, hj⟩ h1
      exact ⟨⟨k + 1, .succ (alg := Radau.alg) h0 h1⟩, step h0 h1 hj⟩
  have fin : I s := by
    rcases hs with ⟨k, hs⟩ | hs
    · exact some hs
    · obtain ⟨k, s1, h1, h2⟩ := (integrate_iff Radau.fuelMono).1 hs
      exact step h1 h2 (some h1)
  obtain ⟨l', p, h1, -, -, -, h2⟩ := fin
  obtain rfl := hl.unique h1
  intro q hq
  obtain ⟨e1, e2⟩ := (h2 hch).1 q hq
  exact ⟨e1, e2.trans (emono (by linarith [e1.1]) (by linarith [e1.2]))⟩

end run

/-! ### C77 -/

/-- **C77** The error with explicit constants. Let `R`, `M`, `L` and `K`, `h1` be constants of the problem as above, `B` a bound for
the Jacobian the user supplies or the one computed (any matrix will do). In an undisturbed forward run in which every step is made
with at least `m ≤ 5` passes and in which no recorded step is longer than `h`, all recorded states are within `E` of the solution,
where `E = T exp(2 L T) (K' h^m + 1e-16 (M + 1))` and `T = tf - t0`. -/
theorem C77_global_radau (hn : n ≠ 0) {b : Builder X n P} {f : ℝ → (Fin n → ℝ) → Fin n → ℝ}
    {jac : ℝ → (Fin n → ℝ) → Fin n → Fin n → ℝ} {C : Radau.Clock} {s0 s : Radau.St X n P} {R M L B K K' h1 Z h E : ℝ}
    {y : ℝ → Fin n → ℝ} {m : ℕ} {l : List (ℝ × (Fin n → ℝ))}
    (HR : Radau.RealProblem b f jac (y C.t0)) (T : Radau.Timed C b) (hS : C.Sane) (ht : C.t0 ≤ C.tf)
    (hc : ∀ t u, Spec.FirstNotEigen (C.Sane ∧ C.t0 ≤ C.tf) (jac t u)) (HB : Spec.Bounded f C.t0 C.tf y R M L)
    (hJ : ∀ t ∈ Icc C.t0 C.tf, ∀ u, (∀ i, |u i| ≤ R + 2) → ∀ i, ∑ j, |jac t u i j| ≤ B)
    (hK : 0 ≤ K) (hloc : Spec.RadauLocal f C.t0 C.tf y R M L K h1)
    (hb : b.build Radau.alg = .ok s0) (hd : Radau.Undisturbed s0) (hm : 1 ≤ m) (hm5 : m ≤ 5) (hp : Radau.Passes m s0)
    (hs : (∃ k, SomeSteps Radau.alg none k s0 s) ∨ IntegrateReturns Radau.alg none s0 s)
    (hl : Recorded s.sol l) (hch : l.IsChain fun p q => q.1 - p.1 ≤ h)
    (hZ : Z = 6750 * (15 * M + B) * (1 + (2 / C.fr + 1) * (2 / C.fr + 2))) (hK' : K' = K + 2 * Conv.newtonK m L M B Z)
    (h0 : 0 ≤ h) (g1 : h ≤ h1) (g2 : h ≤ Conv.newtonH L M B Z) (g3 : (1 + K') * h ≤ 1)
    (hE : E = (C.tf - C.t0) * Real.exp (2 * L * (C.tf - C.t0)) * (K' * h ^ m + 1e-16 * (M + 1))) (g4 : E ≤ 1) :
    ∀ p ∈ l, p.1 ∈ Icc C.t0 C.tf ∧ ∀ i, |p.2 i - y p.1 i| ≤ E := by
  have M0 := HB.M0
  have fr0 := T.ctl.facr_pos
  have hB : 0 ≤ B := by
    have := hJ C.t0 ⟨le_rfl, ht⟩ (y C.t0) (fun i => (HB.sol C.t0 ⟨le_rfl, ht⟩ i).trans (by linarith)) ⟨0, by omega⟩
    exact (Finset.sum_nonneg fun j _ => abs_nonneg _).trans this
  have Z0 : 0 ≤ Z := by rw [hZ]; positivity
  have nK := (Conv.newton_final (N := Radau.codeTransform) (c := Radau.codeC) Radau.code_bounds (by norm_num) HB.conv hB Z0 hm).1
  have K0 : 0 ≤ K' := by rw [hK']; positivity
  rw [hE] at g4 ⊢
  intro p hp'
  obtain ⟨e1, e2⟩ := radau_error hn (K := K') (Q := 1 / C.fr) (Z := Z) HR T hS ht hc hb hd hp HB hJ K0 le_rfl hB
    (by rw [hZ]; ring) (fun J t h u y₀ j g yy Δ z a1 a2 a3 a4 a5 a6 a7 a8 a9 a10 => by
      have := radau_one HB hK hloc hB Z0 hm hm5 J t h u y₀ j g yy Δ z a1 a2 a3 a4 a5 a6 a7 a8 a9 a10
      rw [← hK'] at this
      exact this)
    (le_min (le_min g1 g2) (by
      rw [show 1 + K + 2 * Conv.newtonK m L M B Z = 1 + K' by rw [hK']; ring, le_div_iff₀ (by positivity)]
      linarith)) rfl h0 g4 hs hl hch p hp'
  exact ⟨e1, fun i => (norm_le_pi_norm (p.2 - y p.1) i).trans e2⟩

/-- **C77** Radau5 converges: for a problem whose right-hand side has five continuous derivatives and whose solution exists on the
whole span, with a Jacobian bounded near the solution (it need not be the derivative), and for a smallest value `fr` of `facr`, there
are `C` and `hmax > 0` such that in every undisturbed forward run, whatever the tolerances and the other options, if every step is
made with at least `m` passes of the Newton iteration, `1 ≤ m ≤ 5`, and no recorded step is longer than `h ≤ hmax`, then all recorded
states are within `C h^m + δ` of the solution. Here `δ = 1e-16 (M + 1) T exp(2 L T)` is the effect of the coefficients of the method
having a finite number of digits; it has to be at most `1/2`. -/
theorem C77_order_radau (hn : n ≠ 0) {f : ℝ → (Fin n → ℝ) → Fin n → ℝ} {jac : ℝ → (Fin n → ℝ) → Fin n → Fin n → ℝ}
    (hf : ContDiff ℝ 5 (Function.uncurry f)) {t0 tf : ℝ} (ht : t0 < tf) {y : ℝ → Fin n → ℝ} (hy : Spec.IsSolution f t0 tf y)
    {R M L B fr : ℝ} (HB : Spec.Bounded f t0 tf y R M L)
    (hJ : ∀ t ∈ Icc t0 tf, ∀ u, (∀ i, |u i| ≤ R + 2) → ∀ i, ∑ j, |jac t u i j| ≤ B)
    (hfr : 0 < fr) (hδ : 1e-16 * (M + 1) * (tf - t0) * Real.exp (2 * L * (tf - t0)) ≤ 1 / 2) {m : ℕ} (hm : 1 ≤ m) (hm5 : m ≤ 5) :
    ∃ C hmax : ℝ, 0 < hmax ∧ ∀ (P : Type) (clk : Radau.Clock) (b : Builder X n P) (s0 s : Radau.St X n P)
      (l : List (ℝ × (Fin n → ℝ))) (h : ℝ), clk.t0 = t0 → clk.tf = tf → fr ≤ clk.fr →
      Radau.RealProblem b f jac (y t0) → Radau.Timed clk b → clk.Sane →
      (∀ t u, Spec.FirstNotEigen (clk.Sane ∧ clk.t0 ≤ clk.tf) (jac t u)) →
      b.build Radau.alg = .ok s0 → Radau.Undisturbed s0 → Radau.Passes m s0 →
      ((∃ k, SomeSteps Radau.alg none k s0 s) ∨ IntegrateReturns Radau.alg none s0 s) → Recorded s.sol l →
      0 ≤ h → h ≤ hmax → l.IsChain (fun p q => q.1 - p.1 ≤ h) →
      ∀ p ∈ l, ∀ i, |p.2 i - y p.1 i| ≤ C * h ^ m + 1e-16 * (M + 1) * (tf - t0) * Real.exp (2 * L * (tf - t0)) := by
  obtain ⟨K, hK, h1, hh1, hloc⟩ := radau_local hf ht hy HB
  have M0 := HB.M0
  have hB : 0 ≤ B := by
    have := hJ t0 ⟨le_rfl, ht.le⟩ (y t0) (fun i => (HB.sol t0 ⟨le_rfl, ht.le⟩ i).trans (by linarith)) ⟨0, by omega⟩
    exact (Finset.sum_nonneg fun j _ => abs_nonneg _).trans this
  obtain ⟨Q, hQ⟩ : ∃ Q, Q = 1 / fr := ⟨_, rfl⟩
  have Q0 : 0 ≤ Q := by rw [hQ]; positivity
  obtain ⟨Z, hZ⟩ : ∃ Z, Z = 30 * (225 * (15 * M + B)) * (1 + (2 * Q + 1) * (2 * Q + 2)) := ⟨_, rfl⟩
  have Z0 : 0 ≤ Z := by rw [hZ]; positivity
  obtain ⟨nK, nH, -⟩ :=
    Conv.newton_final (N := Radau.codeTransform) (c := Radau.codeC) Radau.code_bounds (by norm_num) HB.conv hB Z0 hm
  obtain ⟨K', hK'⟩ : ∃ K', K' = K + 2 * Conv.newtonK m L M B Z := ⟨_, rfl⟩
  have K0 : 0 ≤ K' := by rw [hK']; positivity
  have hT : 0 < tf - t0 := by linarith
  obtain ⟨W, hW⟩ : ∃ W, W = (tf - t0) * Real.exp (2 * L * (tf - t0)) := ⟨_, rfl⟩
  have W0 : 0 ≤ W := by rw [hW]; positivity
  refine ⟨W * K', min (min (min h1 (Conv.newtonH L M B Z)) (1 / (1 + K'))) (min 1 (1 / (2 * (W * K') + 1))), by positivity, ?_⟩
  rintro P clk b s0 s l h rfl rfl hfr' HR T hS hc hb hd hp hs hl h0 hh hch p hp' i
  simp only [le_min_iff] at hh
  obtain ⟨⟨⟨g1, g2⟩, g3⟩, g4, g5⟩ := hh
  rw [le_div_iff₀ (by positivity)] at g3 g5
  have hpow : h ^ m ≤ h := by simpa using pow_le_pow_of_le_one h0 g4 hm
  have htube : (clk.tf - clk.t0) * Real.exp (2 * L * (clk.tf - clk.t0)) * (K' * h ^ m + 1e-16 * (M + 1)) ≤ 1 := by
    rw [← hW]
    have e1 : 1e-16 * (M + 1) * (clk.tf - clk.t0) * Real.exp (2 * L * (clk.tf - clk.t0)) = 1e-16 * (M + 1) * W := by rw [hW]; ring
    rw [e1] at hδ
    have e2 := mul_le_mul_of_nonneg_left hpow (mul_nonneg W0 K0)
    have e3 : 2 * (W * K' * h) ≤ 1 := by linarith
    have e4 : W * (K' * h ^ m + 1e-16 * (M + 1)) = W * K' * h ^ m + 1e-16 * (M + 1) * W := by ring
    rw [e4]
    linarith
  have := radau_error hn (K := K') (Q := Q) (Z := Z) HR T hS ht.le hc hb hd hp HB hJ K0
    (by rw [hQ]; exact one_div_le_one_div_of_le hfr hfr') hB hZ
    (fun J t h u y₀ j g yy Δ z a1 a2 a3 a4 a5 a6 a7 a8 a9 a10 => by
      have := radau_one HB hK hloc hB Z0 hm hm5 J t h u y₀ j g yy Δ z a1 a2 a3 a4 a5 a6 a7 a8 a9 a10
      rw [← hK'] at this
      exact this)
    (le_min (le_min g1 g2) (by
      rw [show 1 + K + 2 * Conv.newtonK m L M B Z = 1 + K' by rw [hK']; ring, le_div_iff₀ (by positivity)]
      linarith)) rfl h0 htube hs hl hch p hp'
  refine (norm_le_pi_norm (p.2 - y p.1) i).trans (this.2.trans_eq ?_)
  rw [hW]
  ring

section passes
variable {b : Builder X n P} {f : ℝ → (Fin n → ℝ) → Fin n → ℝ}
  {jac : ℝ → (Fin n → ℝ) → Fin n → Fin n → ℝ} {u0 : Fin n → ℝ} {C : Radau.Clock} {s0 s s' : Radau.St X n P}

/-- **C77** Every accepted step is made with at least one pass: so the run converges with order one at least. -/
theorem C77_one_pass_radau (R : Radau.RealProblem b f jac u0) (T : Radau.Timed C b) (hn : n ≠ 0)
    (hc : ∀ t u, Spec.FirstNotEigen (C.Sane ∧ C.t0 ≤ C.tf) (jac t u)) (hb : b.build Radau.alg = .ok s0) :
    Radau.Passes 1 s0 := by
  intro k s o s' hs h ha
  obtain ⟨t, h, hf, u, J, g, y, Δ, z, S, -⟩ := radau_accepted R T hn hc hb hs h ha
  obtain ⟨y₀, j, -, -, c1, -⟩ := S.count
  omega

/-- **C77** With `quot2 < quot1` no decomposition is reused, and so the run is undisturbed. -/
theorem C77_undisturbed_radau (R : Radau.RealProblem b f jac u0) (T : Radau.Timed C b) (hn : n ≠ 0)
    (hc : ∀ t u, Spec.FirstNotEigen (C.Sane ∧ C.t0 ≤ C.tf) (jac t u)) (hb : b.build Radau.alg = .ok s0) {q2 : ℝ}
    (hq : C.q2 = fin q2) (hlt : q2 < C.q1) : Radau.Undisturbed s0 := by
  have hi : ∀ {k : ℕ} {s : Radau.St X n P}, SomeSteps Radau.alg none k s0 s → s.cache.decompose = true := by
    intro k s hs
    rcases k with _ | k
    · obtain rfl := Steps.zero_eq rfl hs.steps
      rw [← Res.ok.inj hb]
    · obtain ⟨s1, o, h1, h2⟩ := SomeSteps.cases_snoc hs
      obtain ⟨t, h, hf, u, J, g, y, Δ, z, S, ho, -⟩ := radau_accepted R T hn hc hb h1 h2 (.inl (T.run hb hs).1.retcode)
      by_contra hcon
      obtain ⟨-, q, e1, e2⟩ := S.keep (by simpa using hcon)
      rw [ho, ← Res.ok.inj hb] at e1 e2
      change Fl.ge q b.opts.quot1 = true at e1
      change Fl.le q b.opts.quot2 = true at e2
      rw [T.ctl.quot1] at e1
      rw [T.ctl.quot2, hq] at e2
      cases q with
      | fin q =>
        rw [ge_fin] at e1
        rw [le_fin] at e2
        have := of_decide_eq_true e1
        have := of_decide_eq_true e2
        linarith
      | _ => first | exact absurd e1 Bool.false_ne_true | exact absurd e2 Bool.false_ne_true
  intro k s o s' hs h ha
  obtain ⟨t, h, hf, u, J, g, y, Δ, z, S, -⟩ := radau_accepted R T hn hc hb hs h ha
  obtain ⟨f1, -⟩ | ⟨-, f2, -⟩ := S.fresh
  · exact .inl f1
  · rw [hi hs] at f2
    cases f2

/-- **C77** With `dtmax = m`, no recorded step of a forward run is longer than `1.0001 max(m, 1e-6)`. -/
theorem C77_dtmax_radau (R : Radau.RealProblem b f jac u0) (T : Radau.Timed C b) (hS : C.Sane) (ht : C.t0 ≤ C.tf) (hn : n ≠ 0)
    (hc : ∀ t u, Spec.FirstNotEigen (C.Sane ∧ C.t0 ≤ C.tf) (jac t u)) (hb : b.build Radau.alg = .ok s0) {m : ℝ}
    (hm : C.mx = some m) (hs : (∃ k, SomeSteps Radau.alg none k s0 s) ∨ IntegrateReturns Radau.alg none s0 s)
    {l : List (ℝ × (Fin n → ℝ))} (hl : Recorded s.sol l) : l.IsChain fun p q => q.1 - p.1 ≤ 1.0001 * max m 1e-6 := by
  have key : ∀ {k : ℕ} {s s' : Radau.St X n P} {o : Option ℕ}, SomeSteps Radau.alg none k s0 s →
      StepReturns Radau.alg none s o s' → s'.sol.retcode = .Continue ∨ s'.sol.retcode = .Success →
      ∀ {p q : ℝ × (Fin n → ℝ)}, s.t = fin p.1 → s.u = fv p.2 → s'.t = fin q.1 → s'.u = fv q.2 → q.1 - p.1 ≤ 1.0001 * max m 1e-6 := by
    intro k s s' o hs h ha p q e1 e2 e3 e4
    obtain ⟨hr, t', g1, hI⟩ := T.run hb hs
    obtain ⟨⟨fuel, hst⟩, -⟩ := stepReturns_none_iff.1 h
    obtain ⟨h2, h3, T'⟩ | hf := hI.run_step hr hst
    swap
    · obtain ha | ha := ha
      · exact absurd ha hf.1
      · exact absurd ha hf.2
    obtain ⟨h4, e5, l4⟩ := hI.run_cap hr ⟨hS, ht⟩ hst ha
    obtain rfl : h2 = h4 := fin_inj.1 (T'.dtprev.symm.trans e5)
    have x1 : p.1 = t' := fin_inj.1 (e1.symm.trans hI.time)
    have x2 : q.1 = t' + h2 := fin_inj.1 (e3.symm.trans T'.idle.time)
    have x3 : g1 ≤ max m 1e-6 := by
      rcases k with _ | k
      · have : s.dt = 1e-6 := by rw [SomeSteps.cases_zero hs, ← Res.ok.inj hb]; exact T.dt
        rw [hI.step, X.sci, fin_inj] at this
        rw [this]
        exact le_max_right _ _
      · obtain ⟨s1, i, h1, h2⟩ := SomeSteps.cases_snoc hs
        obtain ⟨h', y1, -, y2⟩ := C28_dtmax_radau T hS ht hb hm h1 h2
        rw [hI.step, fin_inj] at y1
        rw [y1]
        exact y2.trans (le_max_left _ _)
    rw [x1, x2]
    linarith
  obtain ⟨l', e1, -, e3⟩ := radau_chain R T hn hc hb (Rel := fun p q => q.1 - p.1 ≤ 1.0001 * max m 1e-6) key hs
  rwa [hl.unique e1]

end passes

/-! ### Cases -/

/-- The run of `const_runs` is undisturbed. -/
theorem const_undisturbed (v : Fin 2 → ℝ) (hv : ∀ i, |v i| ≤ 1) (u0 : Fin 2 → ℝ) : ∃ s0 s : Radau.St X 2 Unit,
    (Radau.constBuilder v u0 0 1.1e-6).build Radau.alg = .ok s0 ∧ IntegrateReturns Radau.alg none s0 s ∧
    s.sol.retcode = .Success ∧ Radau.Undisturbed s0 ∧ Steps Radau.alg none 2 s0 s ∧
    ∃ l, Recorded s.sol l ∧ l.IsChain fun p q => q.1 - p.1 ≤ 1.1e-6 := by
  obtain ⟨s0, s1, s2, hb, h1, h2, c2, c1, t1, t2⟩ := Radau.const_run two_ne_zero v u0 hv
  have S1 : SomeSteps Radau.alg none 1 s0 s1 := .succ (alg := Radau.alg) (.zero (alg := Radau.alg) s0) h1
  have T := Radau.const_timed v u0 0 1.1e-6
  have hint := (integrate_iff Radau.fuelMono).2 ⟨1, s1, S1, h2⟩
  have d0 : s0.cache.decompose = true := by rw [← Res.ok.inj hb]
  have t0 : s0.t = fin 0 := by rw [← Res.ok.inj hb]; rfl
  have only : ∀ {k : ℕ} {s : Radau.St X 2 Unit}, SomeSteps Radau.alg none k s0 s → s = s0 ∨ s = s1 := by
    intro k s hs
    rcases k with _ | _ | k
    · exact .inl (SomeSteps.cases_zero hs)
    · obtain ⟨s3, i, h3, h4⟩ := SomeSteps.cases_snoc hs
      rw [SomeSteps.cases_zero h3] at h4
      exact .inr (stepReturns_unique Radau.fuelMono h4 h1).2
    · obtain ⟨s3, i, h3, h4⟩ := SomeSteps.cases_cons hs
      obtain ⟨s4, i, h5, -⟩ := SomeSteps.cases_cons h4
      rw [(stepReturns_unique Radau.fuelMono h3 h1).2] at h5
      exact absurd (stepReturns_unique Radau.fuelMono h5 h2).1 (by simp)
  have d1 : s1.cache.decompose = true := by
    obtain ⟨t, h, hf, u, J, g, y, Δ, z, S, ho, -⟩ := radau_accepted (Radau.const_problem v u0 0 1.1e-6) T two_ne_zero
      (jac_const_ok v u0 _) hb (.zero (alg := Radau.alg) s0) h1 (.inl c1)
    obtain ⟨hr, t', g1, hI⟩ := T.run hb (.zero (alg := Radau.alg) s0)
    obtain ⟨⟨fuel, hst⟩, -⟩ := stepReturns_none_iff.1 h1
    obtain ⟨h2, h3, T'⟩ | hf := hI.run_step hr hst
    swap
    · exact absurd c1 hf.1
    by_contra hcon
    obtain ⟨e1, -⟩ := S.keep (by simpa using hcon)
    obtain rfl : h = h2 := fin_inj.1 (S.dtprev.symm.trans T'.dtprev)
    obtain rfl : h = h3 := fin_inj.1 (e1.symm.trans T'.idle.step)
    have x1 : t' = 0 := fin_inj.1 (hI.time.symm.trans t0)
    have x2 : t' + h = 1e-6 := fin_inj.1 (T'.idle.time.symm.trans t1)
    obtain rfl : h = 1e-6 := by linarith
    obtain ⟨q, rej, -, -, -, q4⟩ := T'.next c1
    rw [x1, zero_add] at q4
    have hd : (Radau.defaultClock 0 1.1e-6 none).d = 1 := by norm_num [Radau.Clock.d, Radau.defaultClock]
    have htf : (Radau.defaultClock 0 1.1e-6 none).tf = 1.1e-6 := rfl
    have hq1 : (Radau.defaultClock 0 1.1e-6 none).q1 = 1 := rfl
    generalize Radau.Clock.proposal _ rej 1e-6 q = x at q4
    obtain ⟨w, hw⟩ : ∃ w : ℝ, w = 1e-6 := ⟨_, rfl⟩
    generalize hC : Radau.defaultClock 0 1.1e-6 none = C at *
    have key : ∀ {t h x h' : ℝ}, C.Next t h x h' → t = 1e-6 → h = 1e-6 → h' = 1e-6 → False := by
      intro t h x h' hn e1 e2 e3
      cases hn with
      | toEnd _ => rw [htf, e1] at e3; norm_num at e3
      | keep k1 k2 _ =>
        rw [hd, hq1, htf, e1] at k1
        rw [hq1, e2, le_div_iff₀ (by norm_num)] at k2
        norm_num at k1 k2
        linarith
      | change k1 =>
        rw [hd, hq1, htf, e1, e3] at k1
        norm_num at k1
    exact key q4 rfl rfl rfl
  refine ⟨s0, s2, hb, hint, c2, ?_, ?_, ?_⟩
  · intro k s o s' hs h ha
    obtain ⟨t, h', hf, u, J, g, y, Δ, z, S, -⟩ := radau_accepted (Radau.const_problem v u0 0 1.1e-6) T two_ne_zero
      (jac_const_ok v u0 _) hb hs h ha
    obtain ⟨f1, -⟩ | ⟨-, f2, -⟩ := S.fresh
    · exact .inl f1
    exfalso
    rcases only hs with rfl | rfl
    · rw [d0] at f2; cases f2
    · rw [d1] at f2; cases f2
  · exact .succ (alg := Radau.alg) (.succ (alg := Radau.alg) (.zero (alg := Radau.alg) s0) h1) h2
  · have key : ∀ {k : ℕ} {s s' : Radau.St X 2 Unit} {o : Option ℕ}, SomeSteps Radau.alg none k s0 s →
      StepReturns Radau.alg none s o s' → s'.sol.retcode = .Continue ∨ s'.sol.retcode = .Success →
      ∀ {p q : ℝ × (Fin 2 → ℝ)}, s.t = fin p.1 → s.u = fv p.2 → s'.t = fin q.1 → s'.u = fv q.2 → q.1 - p.1 ≤ 1.1e-6 := by
      intro k s s' o hs h ha p q e1 e2 e3 e4
      obtain ⟨hr, t', g1, hI⟩ := T.run hb hs
      obtain ⟨⟨fuel, hst⟩, -⟩ := stepReturns_none_iff.1 h
      obtain ⟨h2, h3, T'⟩ | hf := hI.run_step hr hst
      swap
      · obtain ha | ha := ha
        · exact absurd ha hf.1
        · exact absurd ha hf.2
      have x1 := (T'.pos ⟨Radau.defaultClock_sane _ _ _, by norm_num [Radau.defaultClock]⟩).2
      have x2 : q.1 = t' + h2 := fin_inj.1 (e3.symm.trans T'.idle.time)
      have x3 : 0 ≤ p.1 := by
        rcases only hs with rfl | rfl
        · rw [t0, fin_inj] at e1; linarith
        · rw [t1, fin_inj] at e1; rw [← e1]; norm_num
      have htf : (Radau.defaultClock 0 1.1e-6 none).tf = 1.1e-6 := rfl
      rw [htf] at x1
      linarith
    obtain ⟨l, e1, -, e2⟩ := radau_chain (Radau.const_problem v u0 0 1.1e-6) T two_ne_zero
      (jac_const_ok v u0 _) hb (Rel := fun p q => q.1 - p.1 ≤ 1.1e-6) key (.inr hint)
    exact ⟨l, e1, e2⟩

theorem const_local (v u0 : Fin 2 → ℝ) {R M : ℝ} (hv : ‖v‖ ≤ M) (tf : ℝ) :
    Spec.RadauLocal (fun _ _ => v) 0 tf (fun t => u0 + t • v) R M 0 0 1 := by
  intro t h u z ρ i1 i2 i3 i4 _ hz
  have h1 := hz 2
  rw [← Finset.sum_smul] at h1
  have h2 := Radau.code_method.last 0 (by norm_num)
  obtain ⟨S, hS⟩ : ∃ S, S = ∑ l, Radau.codeTransform.A 2 l := ⟨_, rfl⟩
  have h3 : |S - 1| ≤ 1e-16 := by
    rw [hS, abs_sub_comm]
    simpa [Conv.eps, Radau.codeC] using h2
  rw [← hS] at h1
  have e : u + z 2 - (u0 + (t + h) • v) = (u - (u0 + t • v)) + (z 2 - h • S • v) + (h * (S - 1)) • v := by
    module
  have h4 : ‖(h * (S - 1)) • v‖ ≤ 1e-16 * h * M := by
    rw [norm_smul, Real.norm_eq_abs, abs_mul, abs_of_nonneg i2, mul_comm (1e-16 : ℝ)]
    have := mul_le_mul h3 hv (norm_nonneg _) (by norm_num)
    have := mul_le_mul_of_nonneg_left this i2
    linarith
  have ρ0 := (norm_nonneg _).trans h1
  rw [e]
  refine (norm_add_le_of_le (norm_add_le_of_le le_rfl h1) h4).trans ?_
  linarith

/-- C77 for this run, with `u' = (1e-4, -1e-4)`. -/
example : ∃ s0 s : Radau.St X 2 Unit, (Radau.constBuilder ![1e-4, -1e-4] ![0, 3] 0 1.1e-6).build Radau.alg = .ok s0 ∧
    IntegrateReturns Radau.alg none s0 s ∧ s.sol.retcode = .Success ∧ Steps Radau.alg none 2 s0 s ∧ ∃ l, Recorded s.sol l ∧
    ∀ p ∈ l, ∀ i, |p.2 i - (![0, 3] i + p.1 * ![1e-4, -1e-4] i)| ≤ 1.2e-22 := by
  obtain ⟨v, hv⟩ : ∃ v : Fin 2 → ℝ, v = ![1e-4, -1e-4] := ⟨_, rfl⟩
  have hvn : ∀ i, |v i| ≤ 1e-4 := by
    rw [hv]
    intro i
    fin_cases i <;> simp <;> rw [abs_of_pos (by norm_num)]
  rw [← hv]
  obtain ⟨s0, s, hb, hi, hc, hd, ha, l, hl, hch⟩ := const_undisturbed v (fun i => (hvn i).trans (by norm_num)) ![0, 3]
  have HB : Spec.Bounded (fun _ _ => v) 0 1.1e-6 (fun t => ![0, 3] + t • v) 4 1e-4 0 := by
    refine ⟨fun t ht i => ?_, by norm_num, by norm_num, le_rfl, fun _ _ _ _ i => hvn i, fun _ _ _ _ _ _ _ _ i => by simp⟩
    have h1 : |(![0, 3] : Fin 2 → ℝ) i| ≤ 3 := by fin_cases i <;> simp
    have h2 : |t * v i| ≤ 1 := by
      rw [abs_mul, abs_of_nonneg ht.1]
      have := mul_le_mul ht.2 (hvn i) (abs_nonneg _) (by norm_num)
      norm_num at this ⊢
      linarith
    have := abs_add_le ((![0, 3] : Fin 2 → ℝ) i) (t * v i)
    simp only [Pi.add_apply, Pi.smul_apply, smul_eq_mul]
    linarith
  have R := Radau.const_problem v ![0, 3] 0 1.1e-6
  have T := Radau.const_timed v ![0, 3] 0 1.1e-6
  have key := C77_global_radau (C := Radau.defaultClock 0 1.1e-6 none) (y := fun t => ![0, 3] + t • v) (m := 1) (B := 0) (h := 1.1e-6)
    (K := 0) (h1 := 1) two_ne_zero (by
      have e : ![0, 3] + (Radau.defaultClock 0 1.1e-6 none).t0 • v = ![0, 3] := by simp [Radau.defaultClock]
      rw [e]; exact R) T (Radau.defaultClock_sane _ _ _)
    (by norm_num [Radau.defaultClock]) (jac_const_ok v ![0, 3] _) HB (by intro _ _ _ _ _; simp) le_rfl
    (const_local v ![0, 3] ((pi_norm_le_iff_of_nonneg (by norm_num)).2 hvn) _) hb hd le_rfl (by norm_num)
    (C77_one_pass_radau R T two_ne_zero (jac_const_ok v ![0, 3] _) hb) (.inr hi) hl hch rfl rfl (by norm_num) (by norm_num)
    (by norm_num [Conv.newtonH, Radau.defaultClock]) (by norm_num [Conv.newtonK]) rfl
    (by norm_num [Conv.newtonK, Radau.defaultClock])
  refine ⟨s0, s, hb, hi, hc, ha, l, hl, fun p hp i => ?_⟩
  have := (key p hp).2 i
  simp only [Pi.add_apply, Pi.smul_apply, smul_eq_mul] at this
  refine this.trans ?_
  norm_num [Conv.newtonK, Radau.defaultClock]

end
end Cyphus
