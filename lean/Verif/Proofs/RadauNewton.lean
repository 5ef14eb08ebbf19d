import Verif.Proofs.Converge
import Verif.Spec.RadauIIA
/-!
# Simplified Newton iterations for small steps: contraction and residual
-/

namespace Cyphus.Conv
open Set
set_option autoImplicit false
set_option linter.unusedSectionVars false
noncomputable section

variable {n : ℕ} {f : ℝ → (Fin n → ℝ) → Fin n → ℝ} {a b R M L δ : ℝ} {N : Spec.Transform} {c : Fin 3 → ℝ}
  {J : Fin n → Fin n → ℝ} {t h : ℝ} {u : Fin n → ℝ} {g y Δ z y₀ : Fin 3 → Fin n → ℝ}

/-- Bounds for the matrices of the iteration. -/
structure Consts (N : Spec.Transform) (c : Fin 3 → ℝ) (δ : ℝ) : Prop where
  γ : N.γ ≠ 0
  αβ : N.α ^ 2 + N.β ^ 2 ≠ 0
  T : ∀ k l, |N.T k l| ≤ 5
  TI : ∀ k l, |N.TI k l| ≤ 5
  LI : ∀ k l, |N.LamInv k l| ≤ 5
  A : ∀ k l, |N.A k l| ≤ 5
  TL : ∀ k l, |(N.T * N.LamInv) k l| ≤ 5
  inv : ∀ k l, |(N.T * N.TI - 1) k l| ≤ δ
  c0 : ∀ k, 0 ≤ c k
  c1 : ∀ k, c k ≤ 1

/-- The Jacobian as a map. -/
def app (J : Fin n → Fin n → ℝ) (v : Fin n → ℝ) : Fin n → ℝ := fun i => ∑ j, J i j * v j

theorem app_le {B : ℝ} (hJ : ∀ i, ∑ j, |J i j| ≤ B) (v : Fin n → ℝ) : ‖app J v‖ ≤ B * ‖v‖ := by
  rcases isEmpty_or_nonempty (Fin n) with he | ⟨⟨i0⟩⟩
  · rw [show app J v = v from Subsingleton.elim _ _]
    have : v = 0 := Subsingleton.elim _ _
    rw [this]; simp
  have hB : 0 ≤ B := (Finset.sum_nonneg fun _ _ => abs_nonneg _).trans (hJ i0)
  refine (pi_norm_le_iff_of_nonneg (mul_nonneg hB (norm_nonneg _))).2 fun i => ?_
  rw [app, Real.norm_eq_abs]
  refine (Finset.abs_sum_le_sum_abs _ _).trans ((Finset.sum_le_sum (g := fun j => |J i j| * ‖v‖) fun j _ => ?_).trans ?_)
  · rw [abs_mul]; exact mul_le_mul_of_nonneg_left (norm_le_pi_norm v j) (abs_nonneg _)
  · rw [← Finset.sum_mul]; exact mul_le_mul_of_nonneg_right (hJ i) (norm_nonneg _)

theorem comb_le {W : Matrix (Fin 3) (Fin 3) ℝ} {κ : ℝ} (hW : ∀ k l, |W k l| ≤ κ) {v : Fin 3 → Fin n → ℝ} {D : ℝ} (hv : ∀ l, ‖v l‖ ≤ D)
    (k : Fin 3) : ‖∑ l, W k l • v l‖ ≤ 3 * κ * D := by
  have hκ : 0 ≤ κ := (abs_nonneg _).trans (hW 0 0)
  have : ∀ l, ‖W k l • v l‖ ≤ κ * D := fun l => by
    rw [norm_smul, Real.norm_eq_abs]
    exact mul_le_mul (hW k l) (hv l) (norm_nonneg _) hκ
  rw [Fin.sum_univ_three]
  have := norm_add_le_of_le (norm_add_le_of_le (this 0) (this 1)) (this 2)
  linarith

/-- The transformed increments after a pass. -/
theorem pass_inner (hN : Consts N c δ) (P : Spec.NewtonPass N c f J t h h u g y Δ z) (k : Fin 3) :
    g k + Δ k = h • ∑ l, N.LamInv k l • (∑ m, N.TI l m • f (t + c m * h) (u + y m) + app J (Δ l)) := by
  have hγ := hN.γ
  have hαβ := hN.αβ
  funext i
  have h0 := P.system 0 i
  have h1 := P.system 1 i
  have h2 := P.system 2 i
  simp only [Fin.sum_univ_three, Spec.Transform.Lam, Matrix.of_apply, Matrix.cons_val', Matrix.cons_val_zero, Matrix.cons_val_one,
    Matrix.cons_val, Matrix.cons_val_fin_one, zero_mul, add_zero, zero_add] at h0 h1 h2
  simp only [Pi.add_apply, Pi.smul_apply, smul_eq_mul, Finset.sum_apply, Fin.sum_univ_three, app]
  set F0 := f (t + c 0 * h) (u + y 0) i
  set F1 := f (t + c 1 * h) (u + y 1) i
  set F2 := f (t + c 2 * h) (u + y 2) i
  set D0 := ∑ j, J i j * Δ 0 j
  set D1 := ∑ j, J i j * Δ 1 j
  set D2 := ∑ j, J i j * Δ 2 j
  fin_cases k <;> simp [Spec.Transform.LamInv]
  · field_simp
    linarith
  · field_simp
    linear_combination N.α * h1 + N.β * h2
  · field_simp
    linear_combination N.α * h2 - N.β * h1

theorem pass_result (P : Spec.NewtonPass N c f J t h h u g y Δ z) (k : Fin 3) : z k = ∑ l, N.T k l • (g l + Δ l) := by
  funext i
  rw [P.result k i]
  simp only [Finset.sum_apply, Pi.smul_apply, Pi.add_apply, smul_eq_mul]

/-- The residual of the stage equations after a pass. -/
theorem pass_residual (hN : Consts N c δ) (P : Spec.NewtonPass N c f J t h h u g y Δ z) (k : Fin 3) :
    z k - h • ∑ l, N.A k l • f (t + c l * h) (u + z l) =
      h • (∑ l, N.A k l • (f (t + c l * h) (u + y l) - f (t + c l * h) (u + z l)) + ∑ l, (N.T * N.LamInv) k l • app J (Δ l)) := by
  have stage : z k = h • (∑ l, N.A k l • f (t + c l * h) (u + y l) + ∑ l, (N.T * N.LamInv) k l • app J (Δ l)) := by
    rw [pass_result P k]
    simp only [pass_inner hN P, Spec.Transform.A, Matrix.mul_apply, Fin.sum_univ_three]
    module
  have e : ∀ w : Fin n → ℝ, z k - w = h • (∑ l, N.A k l • f (t + c l * h) (u + y l) + ∑ l, (N.T * N.LamInv) k l • app J (Δ l)) - w := by
    intro w; rw [← stage]
  rw [e]
  simp only [smul_sub, Finset.sum_sub_distrib, smul_add]
  abel

/-- The difference of the increments before and after a pass. -/
theorem pass_diff (hN : Consts N c δ) (P : Spec.NewtonPass N c f J t h h u g y Δ z) : ‖z - y‖ ≤ 15 * ‖Δ‖ + 3 * δ * ‖y‖ := by
  have δ0 : 0 ≤ δ := (abs_nonneg _).trans (hN.inv 0 0)
  refine (pi_norm_le_iff_of_nonneg (by positivity)).2 fun k => ?_
  have h1 : ‖∑ l, N.T k l • Δ l‖ ≤ 3 * 5 * ‖Δ‖ := comb_le hN.T (fun l => norm_le_pi_norm Δ l) k
  have h2 : ‖∑ l, (N.T * N.TI - 1) k l • y l‖ ≤ 3 * δ * ‖y‖ := comb_le hN.inv (fun l => norm_le_pi_norm y l) k
  rw [Pi.sub_apply, pass_result P k]
  rcases P.start with hs | hs
  · have e : ∑ l, N.T k l • (g l + Δ l) - y k = ∑ l, N.T k l • Δ l := by
      funext i
      simp only [Pi.sub_apply, Finset.sum_apply, Pi.smul_apply, Pi.add_apply, smul_eq_mul, mul_add, Finset.sum_add_distrib, hs]
      ring
    rw [e]
    refine h1.trans ?_
    have : 0 ≤ 3 * δ * ‖y‖ := by positivity
    linarith
  · have e : ∑ l, N.T k l • (g l + Δ l) - y k = ∑ l, N.T k l • Δ l + ∑ l, (N.T * N.TI - 1) k l • y l := by
      funext i
      fin_cases k <;> simp [Fin.sum_univ_three, Matrix.mul_apply, hs] <;> ring
    rw [e]
    refine (norm_add_le_of_le h1 h2).trans ?_
    linarith

section
variable {B : ℝ} (hN : Consts N c δ) (Bd : Bounds f a b R M L) (hJ : ∀ i, ∑ j, |J i j| ≤ B) (hB : 0 ≤ B) (ht : a ≤ t) (h0 : 0 ≤ h)
  (hb : t + h ≤ b) (hBh : 30 * h * B ≤ 1)
include hN Bd hJ hB ht h0 hb hBh

theorem node_mem (l : Fin 3) : t + c l * h ∈ Icc a b := by
  have h1 := mul_nonneg (hN.c0 l) h0
  have h2 := mul_le_of_le_one_left h0 (hN.c1 l)
  exact ⟨by linarith, by linarith⟩

theorem inner_le (hy : ∀ l, ‖u + y l‖ ≤ R) (P : Spec.NewtonPass N c f J t h h u g y Δ z) (k : Fin 3) :
    ‖g k + Δ k‖ ≤ 15 * h * (15 * M + B * ‖Δ‖) := by
  rw [pass_inner hN P k, norm_smul, Real.norm_eq_abs, abs_of_nonneg h0]
  have h1 : ∀ l, ‖∑ m, N.TI l m • f (t + c m * h) (u + y m) + app J (Δ l)‖ ≤ 15 * M + B * ‖Δ‖ := by
    intro l
    have h1 : ‖∑ m, N.TI l m • f (t + c m * h) (u + y m)‖ ≤ 3 * 5 * M :=
      comb_le hN.TI (fun m => Bd.bd _ (node_mem hN Bd hJ hB ht h0 hb hBh m) _ (hy m)) l
    have h2 : ‖app J (Δ l)‖ ≤ B * ‖Δ‖ := (app_le hJ _).trans (mul_le_mul_of_nonneg_left (norm_le_pi_norm Δ l) hB)
    refine (norm_add_le_of_le h1 h2).trans ?_
    linarith
  have := mul_le_mul_of_nonneg_left (comb_le hN.LI h1 k) h0
  linarith

/-- The increment of the first pass. -/
theorem first_le (hy : ∀ l, ‖u + y l‖ ≤ R) (P : Spec.NewtonPass N c f J t h h u g y Δ z)
    (hs : ∀ k i, g k i = ∑ l, N.TI k l * y l i) : ‖Δ‖ ≤ 30 * ‖y‖ + 450 * M * h := by
  have M0 := Bd.M0
  have h1 : ∀ k, ‖g k‖ ≤ 15 * ‖y‖ := by
    intro k
    have e : g k = ∑ l, N.TI k l • y l := by funext i; rw [hs k i]; simp
    rw [e]
    have := comb_le hN.TI (fun l => norm_le_pi_norm y l) k
    linarith
  have h2 : ‖Δ‖ ≤ 15 * ‖y‖ + 15 * h * (15 * M + B * ‖Δ‖) := by
    refine (pi_norm_le_iff_of_nonneg (by positivity)).2 fun k => ?_
    have := norm_sub_le_of_le (inner_le hN Bd hJ hB ht h0 hb hBh hy P k) (h1 k)
    rw [add_sub_cancel_left] at this
    linarith
  have h3 := mul_le_mul_of_nonneg_right hBh (norm_nonneg Δ)
  linarith

/-- The increment of a further pass. -/
theorem next_le {g' y' Δ' : Fin 3 → Fin n → ℝ} (hy' : ∀ l, ‖u + y' l‖ ≤ R) (hy : ∀ l, ‖u + y l‖ ≤ R)
    (P' : Spec.NewtonPass N c f J t h h u g' y' Δ' y)
    (P : Spec.NewtonPass N c f J t h h u (fun k i => g' k i + Δ' k i) y Δ z) :
    ‖Δ‖ ≤ h * ((6750 * L + 30 * B) * ‖Δ'‖ + 1350 * L * δ * ‖y'‖) := by
  have L0 := Bd.L0
  have δ0 : 0 ≤ δ := (abs_nonneg _).trans (hN.inv 0 0)
  have hd := pass_diff hN P'
  have hl : ∀ m, ‖f (t + c m * h) (u + y m) - f (t + c m * h) (u + y' m)‖ ≤ L * ‖y - y'‖ := by
    intro m
    refine (Bd.lip _ (node_mem hN Bd hJ hB ht h0 hb hBh m) _ _ (hy m) (hy' m)).trans (mul_le_mul_of_nonneg_left ?_ L0)
    rw [add_sub_add_left_eq_sub]
    exact norm_le_pi_norm (y - y') m
  have h2 : ‖Δ‖ ≤ h * (15 * (15 * (L * ‖y - y'‖) + B * ‖Δ‖ + B * ‖Δ'‖)) := by
    refine (pi_norm_le_iff_of_nonneg (by positivity)).2 fun k => ?_
    have e : Δ k = h • ∑ l, N.LamInv k l • (∑ m, N.TI l m • (f (t + c m * h) (u + y m) - f (t + c m * h) (u + y' m)) +
        app J (Δ l) - app J (Δ' l)) := by
      have e1 := pass_inner hN P k
      have e2 := pass_inner hN P' k
      have e3 : (fun i => g' k i + Δ' k i) = g' k + Δ' k := rfl
      rw [e3, e2] at e1
      rw [← eq_sub_iff_add_eq'] at e1
      rw [e1]
      simp only [Fin.sum_univ_three]
      module
    rw [e, norm_smul, Real.norm_eq_abs, abs_of_nonneg h0]
    refine mul_le_mul_of_nonneg_left ?_ h0
    have h1 : ∀ l, ‖∑ m, N.TI l m • (f (t + c m * h) (u + y m) - f (t + c m * h) (u + y' m)) + app J (Δ l) - app J (Δ' l)‖ ≤
        15 * (L * ‖y - y'‖) + B * ‖Δ‖ + B * ‖Δ'‖ := by
      intro l
      have h1 := comb_le hN.TI hl l
      have h2 : ‖app J (Δ l)‖ ≤ B * ‖Δ‖ := (app_le hJ _).trans (mul_le_mul_of_nonneg_left (norm_le_pi_norm Δ l) hB)
      have h3 : ‖app J (Δ' l)‖ ≤ B * ‖Δ'‖ := (app_le hJ _).trans (mul_le_mul_of_nonneg_left (norm_le_pi_norm Δ' l) hB)
      refine (norm_sub_le_of_le (norm_add_le_of_le h1 h2) h3).trans ?_
      linarith
    have := comb_le hN.LI h1 k
    linarith
  have h3 := mul_le_mul_of_nonneg_right hBh (norm_nonneg Δ)
  have h4 := mul_le_mul_of_nonneg_left hd (show 0 ≤ 450 * h * L by positivity)
  linarith

end

/-- The constant in the bound for the residual after `m` passes. -/
def newtonK (m : ℕ) (L M B Z0 : ℝ) : ℝ :=
  15 * (15 * L + B) * ((6750 * L + 30 * B) ^ (m - 1) * (30 * Z0 + 450 * M) + 2 * (1350 * L * (225 * (15 * M + B) + Z0))) +
    45 * L * (225 * (15 * M + B) + Z0)

/-- Steps for which the bound holds. -/
def newtonH (L M B Z0 : ℝ) : ℝ :=
  1 / (1 + 30 * B + 225 * (15 * M + B) + Z0 + 2 * (6750 * L + 30 * B) +
    (30 * Z0 + 450 * M + 2 * (1350 * L * (225 * (15 * M + B) + Z0))))

/-- The residual and the size of the increments after an iteration of `j + 1` passes. -/
theorem newton_final (hN : Consts N c δ) (δ1 : δ ≤ 1) (Bd : Bounds f a b R M L) {B Z0 : ℝ} (hB : 0 ≤ B) (hZ0 : 0 ≤ Z0) {m : ℕ} (hm : 1 ≤ m) :
    0 ≤ newtonK m L M B Z0 ∧ 0 < newtonH L M B Z0 ∧
    ∀ (J : Fin n → Fin n → ℝ) t h (u : Fin n → ℝ) (y₀ : Fin 3 → Fin n → ℝ) (j : ℕ) (g y Δ z : Fin 3 → Fin n → ℝ),
      (∀ i, ∑ j, |J i j| ≤ B) → a ≤ t → 0 ≤ h → t + h ≤ b → h ≤ newtonH L M B Z0 → ‖u‖ ≤ R - 1 →
      Spec.NewtonRun N c f J t h h u y₀ j g y → Spec.NewtonPass N c f J t h h u g y Δ z → ‖y₀‖ ≤ Z0 * h → m ≤ j + 1 →
      ‖z‖ ≤ 225 * (15 * M + B) * h ∧ (∀ k, ‖u + z k‖ ≤ R) ∧
      ∀ k, ‖z k - h • ∑ l, N.A k l • f (t + c l * h) (u + z l)‖ ≤ newtonK m L M B Z0 * (h ^ (m + 1) + δ * h ^ 2) := by
  have M0 := Bd.M0
  have L0 := Bd.L0
  have δ0 : 0 ≤ δ := (abs_nonneg _).trans (hN.inv 0 0)
  unfold newtonK newtonH
  obtain ⟨Z, hZ⟩ : ∃ Z, Z = 225 * (15 * M + B) := ⟨_, rfl⟩
  have Zp : 0 ≤ Z := by rw [hZ]; positivity
  obtain ⟨C0, hC0⟩ : ∃ C, C = 6750 * L + 30 * B := ⟨_, rfl⟩
  have C0p : 0 ≤ C0 := by rw [hC0]; positivity
  obtain ⟨C1, hC1⟩ : ∃ C, C = 30 * Z0 + 450 * M := ⟨_, rfl⟩
  have C1p : 0 ≤ C1 := by rw [hC1]; positivity
  rw [← hZ, ← hC0, ← hC1]
  obtain ⟨C2, hC2⟩ : ∃ C, C = 2 * (1350 * L * (Z + Z0)) := ⟨_, rfl⟩
  have C2p : 0 ≤ C2 := by rw [hC2]; positivity
  rw [← hC2]
  refine ⟨by positivity, by positivity, fun J t h u y₀ j g y Δ z hJ ht h0 hb hh hu hr P hy₀ hj => ?_⟩
  rw [le_div_iff₀ (by positivity)] at hh
  have m1 := mul_nonneg h0 hB
  have m2 := mul_nonneg h0 Zp
  have m3 := mul_nonneg h0 hZ0
  have m4 := mul_nonneg h0 C0p
  have m5 := mul_nonneg h0 C1p
  have m6 := mul_nonneg h0 C2p
  have hh' : h + 30 * (h * B) + h * Z + h * Z0 + 2 * (h * C0) + (h * C1 + h * C2) ≤ 1 := by linarith
  have g0 : h ≤ 1 := by linarith
  have g1 : 30 * h * B ≤ 1 := by linarith
  have g2 : Z * h ≤ 1 := by linarith
  have g3 : Z0 * h ≤ 1 := by linarith
  have g4 : 2 * (C0 * h) ≤ 1 := by linarith
  have g5 : C1 * h + C2 * h ≤ 1 := by linarith
  have hle : h ^ 2 ≤ h := by rw [pow_two]; exact mul_le_of_le_one_left h0 g0
  clear hh hh'
  have tube : ∀ {v : Fin 3 → Fin n → ℝ}, ‖v‖ ≤ 1 → ∀ l, ‖u + v l‖ ≤ R := by
    intro v hv l
    refine (norm_add_le_of_le hu ((norm_le_pi_norm v l).trans hv)).trans (by linarith)
  have C0h : 0 ≤ C0 * h := mul_nonneg C0p h0
  have hp2 := pow_nonneg h0 2
  -- the size of the increment of the next pass
  have key : ∀ {j : ℕ} {g y : Fin 3 → Fin n → ℝ}, Spec.NewtonRun N c f J t h h u y₀ j g y → ‖y‖ ≤ (Z + Z0) * h ∧ ‖y‖ ≤ 1 ∧
      ∀ {Δ z : Fin 3 → Fin n → ℝ}, Spec.NewtonPass N c f J t h h u g y Δ z →
        ‖Δ‖ ≤ (C0 * h) ^ j * (C1 * h) + C2 * (δ * h ^ 2) := by
    intro j g y hr
    have bound : ∀ j, (C0 * h) ^ j * (C1 * h) + C2 * (δ * h ^ 2) ≤ 1 := by
      intro j
      have e1 : (C0 * h) ^ j ≤ 1 := pow_le_one₀ C0h (by linarith)
      have e2 := mul_le_of_le_one_left (show 0 ≤ C1 * h by positivity) e1
      have e3 : δ * h ^ 2 ≤ h := by
        have := mul_le_of_le_one_left hp2 δ1
        linarith
      have := mul_le_mul_of_nonneg_left e3 C2p
      linarith
    induction hr with
    | start hs =>
      rename_i g
      have y1 : ‖y₀‖ ≤ 1 := hy₀.trans g3
      refine ⟨hy₀.trans (mul_le_mul_of_nonneg_right (by linarith) h0), y1, fun {Δ z} P => ?_⟩
      have := first_le hN Bd hJ hB ht h0 hb g1 (tube y1) P hs
      rw [pow_zero, one_mul]
      have e : 0 ≤ C2 * (δ * h ^ 2) := by positivity
      have e2 : C1 * h = 30 * (Z0 * h) + 450 * M * h := by rw [hC1]; ring
      linarith
    | pass hr' P' ih =>
      rename_i j g y Δ' z'
      obtain ⟨i1, i2, i3⟩ := ih
      have d' := i3 P'
      have d1 : ‖Δ'‖ ≤ 1 := d'.trans (bound j)
      have z1 : ‖z'‖ ≤ Z * h := by
        refine (pi_norm_le_iff_of_nonneg (by positivity)).2 fun k => ?_
        rw [pass_result P' k]
        have := comb_le hN.T (fun l => inner_le hN Bd hJ hB ht h0 hb g1 (tube i2) P' l) k
        refine this.trans ?_
        have h1 := mul_le_mul_of_nonneg_left d1 (mul_nonneg h0 hB)
        have e : Z * h = 225 * (15 * (M * h) + h * B) := by rw [hZ]; ring
        linarith
      have z1' : ‖z'‖ ≤ 1 := z1.trans g2
      refine ⟨z1.trans (mul_le_mul_of_nonneg_right (by linarith) h0), z1', fun {Δ z} P => ?_⟩
      have := next_le hN Bd hJ hB ht h0 hb g1 (tube i2) (tube z1') P' P
      refine this.trans ?_
      have s1 := mul_le_mul_of_nonneg_left d' C0h
      have s2 : h * (1350 * L * δ * ‖y‖) ≤ 1350 * L * (Z + Z0) * (δ * h ^ 2) := by
        have := mul_le_mul_of_nonneg_left i1 (show 0 ≤ h * (1350 * L * δ) by positivity)
        refine (le_of_eq (by ring)).trans (this.trans_eq (by ring))
      have s3 : C0 * h * (C2 * (δ * h ^ 2)) ≤ 1 / 2 * (C2 * (δ * h ^ 2)) :=
        mul_le_mul_of_nonneg_right (by linarith) (by positivity)
      have e : h * ((6750 * L + 30 * B) * ‖Δ'‖ + 1350 * L * δ * ‖y‖) = C0 * h * ‖Δ'‖ + h * (1350 * L * δ * ‖y‖) := by rw [hC0]; ring
      rw [e]
      have e2 : C0 * h * ((C0 * h) ^ j * (C1 * h) + C2 * (δ * h ^ 2)) =
          (C0 * h) ^ (j + 1) * (C1 * h) + C0 * h * (C2 * (δ * h ^ 2)) := by rw [pow_succ]; ring
      rw [e2] at s1
      have e3 : 1350 * L * (Z + Z0) * (δ * h ^ 2) = 1 / 2 * (C2 * (δ * h ^ 2)) := by rw [hC2]; ring
      linarith
  obtain ⟨k1, k2, k3⟩ := key hr
  have hd := k3 P
  obtain ⟨z1, z2, -⟩ := key (.pass hr P)
  have d1 : ‖Δ‖ ≤ (C0 ^ (m - 1) * C1 + C2) * (h ^ m + δ * h ^ 2) := by
    have e1 : (C0 * h) ^ j ≤ (C0 * h) ^ (m - 1) := pow_le_pow_of_le_one C0h (by linarith) (by omega)
    have e2 := mul_le_mul_of_nonneg_right e1 (show 0 ≤ C1 * h by positivity)
    have e3 : (C0 * h) ^ (m - 1) * (C1 * h) = C0 ^ (m - 1) * C1 * h ^ m := by
      have : h ^ m = h ^ (m - 1) * h := by rw [← pow_succ]; congr 1; omega
      rw [this, mul_pow]; ring
    have x1 : 0 ≤ C0 ^ (m - 1) * C1 * (δ * h ^ 2) := by positivity
    have x2 : 0 ≤ C2 * h ^ m := by positivity
    linarith
  have zz : ‖z‖ ≤ Z * h := by
    have d2 : ‖Δ‖ ≤ 1 := by
      refine hd.trans ?_
      have e1 : (C0 * h) ^ j ≤ 1 := pow_le_one₀ C0h (by linarith)
      have e2 := mul_le_of_le_one_left (show 0 ≤ C1 * h by positivity) e1
      have e3 : δ * h ^ 2 ≤ h := by
        have := mul_le_of_le_one_left hp2 δ1
        linarith
      have := mul_le_mul_of_nonneg_left e3 C2p
      linarith
    refine (pi_norm_le_iff_of_nonneg (by positivity)).2 fun k => ?_
    rw [pass_result P k]
    have := comb_le hN.T (fun l => inner_le hN Bd hJ hB ht h0 hb g1 (tube k2) P l) k
    refine this.trans ?_
    have h1 := mul_le_mul_of_nonneg_left d2 (mul_nonneg h0 hB)
    have e : Z * h = 225 * (15 * (M * h) + h * B) := by rw [hZ]; ring
    linarith
  refine ⟨zz, tube z2, fun k => ?_⟩
  have hl : ∀ l, ‖f (t + c l * h) (u + y l) - f (t + c l * h) (u + z l)‖ ≤ L * ‖z - y‖ := by
    intro l
    refine (Bd.lip _ (node_mem hN Bd hJ hB ht h0 hb g1 l) _ _ (tube k2 l) (tube z2 l)).trans (mul_le_mul_of_nonneg_left ?_ L0)
    rw [add_sub_add_left_eq_sub, norm_sub_rev]
    exact norm_le_pi_norm (z - y) l
  rw [pass_residual hN P k, norm_smul, Real.norm_eq_abs, abs_of_nonneg h0]
  have r1 := comb_le hN.A hl k
  have r2 := comb_le hN.TL (v := fun l => app J (Δ l)) (D := B * ‖Δ‖)
    (fun l => (app_le hJ _).trans (mul_le_mul_of_nonneg_left (norm_le_pi_norm Δ l) hB)) k
  have r3 := mul_le_mul_of_nonneg_left (norm_add_le_of_le r1 r2) h0
  refine r3.trans ?_
  have r4 := pass_diff hN P
  have r5 := mul_le_mul_of_nonneg_left r4 (show 0 ≤ 15 * h * L by positivity)
  have r6 := mul_le_mul_of_nonneg_left k1 (show 0 ≤ 45 * h * L * δ by positivity)
  have r7 := mul_le_mul_of_nonneg_left d1 (show 0 ≤ 15 * h * (15 * L + B) by positivity)
  have e1 : 45 * h * L * δ * ((Z + Z0) * h) = 45 * L * (Z + Z0) * (δ * h ^ 2) := by ring
  have e2 : 15 * h * (15 * L + B) * ((C0 ^ (m - 1) * C1 + C2) * (h ^ m + δ * h ^ 2)) =
      15 * (15 * L + B) * (C0 ^ (m - 1) * C1 + C2) * (h ^ (m + 1) + h * (δ * h ^ 2)) := by rw [pow_succ]; ring
  rw [e1] at r6
  rw [e2] at r7
  have x1 : h * (δ * h ^ 2) ≤ δ * h ^ 2 := mul_le_of_le_one_left (by positivity) g0
  have x2 := mul_le_mul_of_nonneg_left x1 (show 0 ≤ 15 * (15 * L + B) * (C0 ^ (m - 1) * C1 + C2) by positivity)
  have x3 : 0 ≤ 45 * L * (Z + Z0) * h ^ (m + 1) := by positivity
  linarith

end
end Cyphus.Conv
