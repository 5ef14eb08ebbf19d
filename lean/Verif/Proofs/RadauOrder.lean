import Verif.Proofs.Converge
/-!
# The error of one perturbed step of a collocation method with three stages

The method is given by its matrix `A` and its nodes `c`, which satisfy the order conditions up to `δ`.
-/

namespace Cyphus.Conv
open Asymptotics Filter Topology Set
set_option autoImplicit false
set_option linter.unusedSectionVars false
noncomputable section

variable {E : Type*} [NormedAddCommGroup E] [NormedSpace ℝ E]
variable {f : ℝ → E → E} {y : ℝ → E} {a b : ℝ} {A : Fin 3 → Fin 3 → ℝ} {c : Fin 3 → ℝ} {δ : ℝ}

/-- The defect of an order condition. -/
def eps (A : Fin 3 → Fin 3 → ℝ) (c : Fin 3 → ℝ) (k : Fin 3) (q : ℕ) : ℝ :=
  c k ^ (q + 1) / (q + 1) - ∑ l, A k l * c l ^ q

/-- The order conditions hold up to `δ`. -/
structure Method (A : Fin 3 → Fin 3 → ℝ) (c : Fin 3 → ℝ) (δ : ℝ) : Prop where
  c0 : ∀ k, 0 ≤ c k
  c1 : ∀ k, c k ≤ 1
  c2 : c 2 = 1
  a1 : ∀ k l, |A k l| ≤ 1
  b1 : ∑ l, |A 2 l| ≤ 1.01
  stage : ∀ k, ∀ q < 3, |eps A c k q| ≤ δ
  last : ∀ q < 5, |eps A c 2 q| ≤ δ
  super : |∑ l, A 2 l * eps A c l 3| ≤ δ
  δ0 : 0 ≤ δ
  δ1 : δ ≤ 1

/-- The defect of the solution in the equation of a stage. -/
def defect (A : Fin 3 → Fin 3 → ℝ) (c : Fin 3 → ℝ) (Y : ℕ → ℝ → E) (k : Fin 3) (p : ℝ × ℝ) : E :=
  Y 0 (p.1 + c k * p.2) - Y 0 p.1 - p.2 • ∑ l, A k l • Y 1 (p.1 + c l * p.2)

theorem Setup.defect_ord (S : Setup f y a b) (H : Method A c δ) (k : Fin 3) {m : ℕ} (hm : m + 1 ≤ 6) :
    Ord a b (m + 1) fun p => defect A c S.Y k p -
      ∑ q ∈ Finset.range m, (p.2 ^ (q + 1) / (q.factorial : ℝ) * eps A c k q) • S.Y (q + 1) p.1 := by
  have h1 : Ord a b (m + 1) fun p => S.Y 0 (p.1 + c k * p.2) -
      ∑ j ∈ Finset.range (m + 1), ((c k * p.2) ^ j / (j.factorial : ℝ)) • S.Y j p.1 :=
    taylor (g := S.Y) (m := m + 1) (fun j hj => S.dY j (by omega)) (S.cY _ hm) (H.c0 k) (H.c1 k)
  have h2 : ∀ l, Ord a b (m + 1) fun p => p.2 • (A k l • (S.Y 1 (p.1 + c l * p.2) -
      ∑ j ∈ Finset.range m, ((c l * p.2) ^ j / (j.factorial : ℝ)) • S.Y (j + 1) p.1)) := fun l =>
    ((taylor (g := fun j => S.Y (j + 1)) (m := m) (fun j hj => S.dY (j + 1) (by omega)) (S.cY _ hm)
      (H.c0 l) (H.c1 l)).smul (A k l)).h1
  refine (((h1.sub (h2 0)).sub (h2 1)).sub (h2 2)).congr (Eventually.of_forall fun p => ?_)
  simp only [defect, Fin.sum_univ_three, Finset.sum_range_succ', smul_sub, smul_add, Finset.smul_sum]
  have key : ∑ q ∈ Finset.range m, (p.2 ^ (q + 1) / (q.factorial : ℝ) * eps A c k q) • S.Y (q + 1) p.1 =
      ∑ j ∈ Finset.range m, ((c k * p.2) ^ (j + 1) / ((j + 1).factorial : ℝ)) • S.Y (j + 1) p.1 -
      ∑ j ∈ Finset.range m, p.2 • A k 0 • ((c 0 * p.2) ^ j / (j.factorial : ℝ)) • S.Y (j + 1) p.1 -
      ∑ j ∈ Finset.range m, p.2 • A k 1 • ((c 1 * p.2) ^ j / (j.factorial : ℝ)) • S.Y (j + 1) p.1 -
      ∑ j ∈ Finset.range m, p.2 • A k 2 • ((c 2 * p.2) ^ j / (j.factorial : ℝ)) • S.Y (j + 1) p.1 := by
    rw [← Finset.sum_sub_distrib, ← Finset.sum_sub_distrib, ← Finset.sum_sub_distrib]
    refine Finset.sum_congr rfl fun q _ => ?_
    simp only [smul_smul, ← sub_smul]
    congr 1
    have hq : (q.factorial : ℝ) ≠ 0 := by positivity
    have hq1 : (q : ℝ) + 1 ≠ 0 := by positivity
    rw [eps, Fin.sum_univ_three, Nat.factorial_succ]
    push_cast
    field_simp
    ring
  rw [key]
  simp only [pow_zero, Nat.factorial_zero, Nat.cast_one, div_one, one_smul]
  abel

/-- A sum of small multiples. -/
theorem sum_small {Y : ℕ → E} {η : ℕ → ℝ} {B h ε : ℝ} {m : ℕ} (s : ℕ) (hY : ∀ q < m, ‖Y q‖ ≤ B) (hη : ∀ q < m, |η q| ≤ ε) (h0 : 0 ≤ h)
    (h1 : h ≤ 1) : ‖∑ q ∈ Finset.range m, (h ^ (q + s) / ((q + (s - 1)).factorial : ℝ) * η q) • Y q‖ ≤ m * B * (ε * h ^ s) := by
  refine (norm_sum_le _ _).trans ((Finset.sum_le_card_nsmul _ _ (B * (ε * h ^ s)) fun q hq => ?_).trans_eq ?_)
  · have hq := Finset.mem_range.1 hq
    rw [norm_smul, Real.norm_eq_abs, abs_mul, abs_of_nonneg (div_nonneg (pow_nonneg h0 _) (Nat.cast_nonneg _))]
    have e1 : h ^ (q + s) / ((q + (s - 1)).factorial : ℝ) ≤ h ^ s := by
      have : (1 : ℝ) ≤ ((q + (s - 1)).factorial : ℝ) := by exact_mod_cast Nat.succ_le_of_lt (Nat.factorial_pos _)
      exact (div_le_self (pow_nonneg h0 _) this).trans (pow_le_pow_of_le_one h0 h1 (by omega))
    have e2 := mul_le_mul e1 (hη q hq) (abs_nonneg _) (pow_nonneg h0 s)
    have ε0 : 0 ≤ ε := (abs_nonneg _).trans (hη q hq)
    calc _ ≤ h ^ s * ε * B := mul_le_mul e2 (hY q hq) (norm_nonneg _) (by positivity)
      _ = _ := by ring
  · rw [Finset.card_range, nsmul_eq_mul]; ring

/-- Bounds for the derivatives. -/
theorem Setup.bounds (S : Setup f y a b) : ∃ B ≥ 0, (∀ q ≤ 6, ∀ t ∈ Icc a b, ‖S.Y q t‖ ≤ B) ∧ (∀ t ∈ Icc a b, ‖S.A 0 t‖ ≤ B) ∧
    ∀ t s, a ≤ t → 0 ≤ s → t + s ≤ b → ‖S.A 0 (t + s) - S.A 0 t‖ ≤ B * s := by
  have h1 : ∀ q ≤ 6, ∃ B, ∀ t ∈ Icc a b, ‖S.Y q t‖ ≤ B := fun q hq => isCompact_Icc.exists_bound_of_continuousOn (S.cY q hq)
  choose! B hB using h1
  obtain ⟨D, hD⟩ := isCompact_Icc.exists_bound_of_continuousOn (S.cA 0 (by omega))
  obtain ⟨D', hD'⟩ := taylor_bound (g := S.A) (m := 1) (fun k hk => S.dA k (by omega)) (S.cA 1 (by omega))
  refine ⟨∑ q ∈ Finset.range 7, |B q| + |D| + |D'|, by positivity, fun q hq t ht => ?_, fun t ht => ?_, fun t s i1 i2 i3 => ?_⟩
  · have := Finset.single_le_sum (f := fun q => |B q|) (fun _ _ => abs_nonneg _) (Finset.mem_range.2 (show q < 7 by omega))
    have h2 := hB q hq t ht
    have h3 := le_abs_self (B q)
    have h4 := abs_nonneg D
    have h5 := abs_nonneg D'
    linarith
  · have h1 : 0 ≤ ∑ q ∈ Finset.range 7, |B q| := by positivity
    have h2 := hD t ht
    have h3 := le_abs_self D
    have h5 := abs_nonneg D'
    linarith
  · have := hD' t s i1 i2 i3
    simp only [Finset.sum_range_one, pow_zero, Nat.factorial_zero, Nat.cast_one, div_one, one_smul, pow_one] at this
    refine this.trans (mul_le_mul_of_nonneg_right ?_ i2)
    have h1 : 0 ≤ ∑ q ∈ Finset.range 7, |B q| := by positivity
    have h3 := le_abs_self D'
    have h5 := abs_nonneg D
    linarith

/-- The defects of the solution. -/
theorem Setup.defects (S : Setup f y a b) (H : Method A c δ) : ∃ C ≥ 0, ∃ h0 > 0, h0 ≤ 1 ∧ ∀ t h, a ≤ t → 0 ≤ h → t + h ≤ b → h ≤ h0 →
    (∀ k, ‖defect A c S.Y k (t, h)‖ ≤ C * (h ^ 4 + δ * h)) ∧
    ‖defect A c S.Y 2 (t, h)‖ ≤ δ * h * ‖S.Y 1 t‖ + C * (h ^ 6 + δ * h ^ 2) ∧
    ‖∑ l, A 2 l • defect A c S.Y l (t, h)‖ ≤ C * (h ^ 5 + δ * h) := by
  obtain ⟨B, B0, hB, -, -⟩ := S.bounds
  choose C4 hC4 h4 hh4 b4 using fun k => (S.defect_ord H k (m := 3) (by norm_num)).bound
  obtain ⟨C6, hC6, h6, hh6, b6⟩ := (S.defect_ord H 2 (m := 5) (by norm_num)).bound
  choose C5 hC5 h5 hh5 b5 using fun k => (S.defect_ord H k (m := 4) (by norm_num)).bound
  have d0 := H.δ0
  refine ⟨C4 0 + C4 1 + C4 2 + C6 + C5 0 + C5 1 + C5 2 + 12 * B, ?_, min 1 (min (min (h4 0) (min (h4 1) (h4 2)))
    (min h6 (min (h5 0) (min (h5 1) (h5 2))))), ?_, min_le_left _ _, fun t h i1 i2 i3 i4 => ?_⟩
  · have := hC4 0
    have := hC4 1
    have := hC4 2
    have := hC5 0
    have := hC5 1
    have := hC5 2
    positivity
  · have := hh4 0
    have := hh4 1
    have := hh4 2
    have := hh5 0
    have := hh5 1
    have := hh5 2
    positivity
  simp only [le_min_iff] at i4
  obtain ⟨g1, ⟨g40, g41, g42⟩, g6, g50, g51, g52⟩ := i4
  have hY : ∀ q < 6, ‖S.Y (q + 1) t‖ ≤ B := fun q hq => hB _ (by omega) t ⟨i1, by linarith⟩
  have p4 := pow_nonneg i2 4
  have p5 := pow_nonneg i2 5
  have p6 := pow_nonneg i2 6
  have p2 := pow_nonneg i2 2
  have c40 := hC4 0
  have c41 := hC4 1
  have c42 := hC4 2
  have c50 := hC5 0
  have c51 := hC5 1
  have c52 := hC5 2
  have dh : 0 ≤ δ * h := mul_nonneg d0 i2
  have dh2 : 0 ≤ δ * h ^ 2 := mul_nonneg d0 p2
  refine ⟨fun k => ?_, ?_, ?_⟩
  · have e1 : ‖defect A c S.Y k (t, h) - ∑ q ∈ Finset.range 3, (h ^ (q + 1) / (q.factorial : ℝ) * eps A c k q) • S.Y (q + 1) t‖ ≤
        (C4 0 + C4 1 + C4 2) * h ^ 4 := by
      fin_cases k
      · exact (b4 0 t h i1 i2 i3 g40).trans (mul_le_mul_of_nonneg_right (by linarith) p4)
      · exact (b4 1 t h i1 i2 i3 g41).trans (mul_le_mul_of_nonneg_right (by linarith) p4)
      · exact (b4 2 t h i1 i2 i3 g42).trans (mul_le_mul_of_nonneg_right (by linarith) p4)
    have e2 := sum_small (m := 3) 1 (fun q hq => hY q (by omega)) (H.stage k) i2 g1
    simp only [Nat.sub_self, add_zero, pow_one] at e2
    have e3 := norm_add_le_of_le e1 e2
    rw [sub_add_cancel] at e3
    refine e3.trans ?_
    have x1 := mul_nonneg B0 p4
    have x2 := mul_nonneg B0 dh
    have x3 : 0 ≤ (C6 + C5 0 + C5 1 + C5 2) * h ^ 4 := by positivity
    have x4 : 0 ≤ (C4 0 + C4 1 + C4 2 + C6 + C5 0 + C5 1 + C5 2) * (δ * h) := by positivity
    push_cast
    linarith
  · have e1 := b6 t h i1 i2 i3 g6
    have e2 := sum_small (m := 4) (Y := fun q => S.Y (q + 2) t) (η := fun q => eps A c 2 (q + 1)) 2
      (fun q hq => hY (q + 1) (by omega)) (fun q hq => H.last (q + 1) (by omega)) i2 g1
    rw [Finset.sum_range_succ'] at e1
    simp only [Nat.add_one_sub_one, Nat.factorial_zero, Nat.cast_one, div_one, zero_add, pow_one] at e1 e2
    have e4 : ‖(h * eps A c 2 0) • S.Y 1 t‖ ≤ δ * h * ‖S.Y 1 t‖ := by
      rw [norm_smul, Real.norm_eq_abs, abs_mul, abs_of_nonneg i2]
      refine mul_le_mul_of_nonneg_right ?_ (norm_nonneg _)
      rw [mul_comm]
      exact mul_le_mul_of_nonneg_right (H.last 0 (by norm_num)) i2
    have e3 := norm_add_le_of_le e1 (norm_add_le_of_le e2 e4)
    rw [sub_add_cancel] at e3
    refine e3.trans ?_
    have x1 := mul_nonneg B0 p6
    have x2 := mul_nonneg B0 dh2
    have x3 : 0 ≤ (C4 0 + C4 1 + C4 2 + C5 0 + C5 1 + C5 2) * h ^ 6 := by positivity
    have x4 : 0 ≤ (C4 0 + C4 1 + C4 2 + C6 + C5 0 + C5 1 + C5 2) * (δ * h ^ 2) := by positivity
    push_cast
    linarith
  · have e1 : ∀ k, ‖A 2 k • (defect A c S.Y k (t, h) - ∑ q ∈ Finset.range 4, (h ^ (q + 1) / (q.factorial : ℝ) * eps A c k q) •
        S.Y (q + 1) t)‖ ≤ C5 k * h ^ 5 := by
      intro k
      rw [norm_smul, Real.norm_eq_abs]
      have hg : h ≤ h5 k := by fin_cases k <;> assumption
      have := mul_le_mul (H.a1 2 k) (b5 k t h i1 i2 i3 hg) (norm_nonneg _) zero_le_one
      simpa using this
    have e2 := sum_small (m := 4) (η := fun q => ∑ l, A 2 l * eps A c l q) (ε := 3 * δ) 1 (fun q hq => hY q (by omega)) (fun q hq => by
      rcases Nat.lt_or_ge q 3 with h3 | h3
      · refine (Finset.abs_sum_le_sum_abs _ _).trans ((Finset.sum_le_card_nsmul _ _ δ fun l _ => ?_).trans_eq (by simp))
        rw [abs_mul]
        have := mul_le_mul (H.a1 2 l) (H.stage l q h3) (abs_nonneg _) zero_le_one
        simpa using this
      · obtain rfl : q = 3 := by omega
        exact H.super.trans (by linarith)) i2 g1
    simp only [Nat.sub_self, add_zero, pow_one] at e2
    have e3 := norm_add_le_of_le (norm_add_le_of_le (norm_add_le_of_le (e1 0) (e1 1)) (e1 2)) e2
    have e4 : ∑ l, A 2 l • defect A c S.Y l (t, h) = A 2 0 • (defect A c S.Y 0 (t, h) - ∑ q ∈ Finset.range 4, (h ^ (q + 1) /
        (q.factorial : ℝ) * eps A c 0 q) • S.Y (q + 1) t) + A 2 1 • (defect A c S.Y 1 (t, h) - ∑ q ∈ Finset.range 4, (h ^ (q + 1) /
        (q.factorial : ℝ) * eps A c 1 q) • S.Y (q + 1) t) + A 2 2 • (defect A c S.Y 2 (t, h) - ∑ q ∈ Finset.range 4, (h ^ (q + 1) /
        (q.factorial : ℝ) * eps A c 2 q) • S.Y (q + 1) t) + ∑ q ∈ Finset.range 4, (h ^ (q + 1) / (q.factorial : ℝ) *
        ∑ l, A 2 l * eps A c l q) • S.Y (q + 1) t := by
      simp only [Fin.sum_univ_three, Finset.sum_range_succ, Finset.sum_range_zero, zero_add]
      module
    rw [e4]
    refine e3.trans ?_
    have x1 := mul_nonneg B0 p5
    have x3 : 0 ≤ (C4 0 + C4 1 + C4 2 + C6) * h ^ 5 := by positivity
    have x4 : 0 ≤ (C4 0 + C4 1 + C4 2 + C6 + C5 0 + C5 1 + C5 2) * (δ * h) := by positivity
    push_cast
    linarith

/-- How the defects of the stages change the last stage. -/
theorem Setup.defect_effect (S : Setup f y a b) (H : Method A c δ) : ∃ C ≥ 0, ∃ h0 > 0, h0 ≤ 1 ∧ ∀ t h, a ≤ t → 0 ≤ h → t + h ≤ b → h ≤ h0 →
    (∀ k, ‖defect A c S.Y k (t, h)‖ ≤ C * (h ^ 4 + δ * h)) ∧ (∀ k, ‖defect A c S.Y k (t, h)‖ ≤ 1) ∧
    ‖defect A c S.Y 2 (t, h)‖ ≤ δ * h * ‖S.Y 1 t‖ + C * (h ^ 6 + δ * h ^ 2) ∧
    ‖h • ∑ l, A 2 l • (f (t + c l * h) (y (t + c l * h) + -defect A c S.Y l (t, h)) - f (t + c l * h) (y (t + c l * h)))‖ ≤
      C * (h ^ 6 + δ * h ^ 2) := by
  obtain ⟨B, B0, -, hB, hB'⟩ := S.bounds
  obtain ⟨C, C0, h1, hh1, hle1, hd⟩ := S.defects H
  have d0 := H.δ0
  have d1 := H.δ1
  have hε := S.ε_pos
  have hC2 : 0 ≤ C ^ 2 := sq_nonneg C
  refine ⟨C + (6 * |S.K| * C ^ 2 + 4 * B * C), by positivity, min h1 (min (1 / (2 * C + 1)) (S.ε / (2 * C + 1))), by positivity,
    (min_le_left _ _).trans hle1, fun t h i1 i2 i3 i4 => ?_⟩
  simp only [le_min_iff] at i4
  obtain ⟨g1, g2, g3⟩ := i4
  rw [le_div_iff₀ (by positivity)] at g2 g3
  obtain ⟨k1, k2, k3⟩ := hd t h i1 i2 i3 g1
  have l1 : h ≤ 1 := g1.trans hle1
  have p4 := pow_nonneg i2 4
  have p5 := pow_nonneg i2 5
  have p6 := pow_nonneg i2 6
  have p2 := pow_nonneg i2 2
  have dh : 0 ≤ δ * h := mul_nonneg d0 i2
  have dh2 : 0 ≤ δ * h ^ 2 := mul_nonneg d0 p2
  have h41 : h ^ 4 ≤ h := by simpa using pow_le_pow_of_le_one i2 l1 (show 1 ≤ 4 by norm_num)
  have hD : C * (h ^ 4 + δ * h) ≤ C * (2 * h) :=
    mul_le_mul_of_nonneg_left (by have := mul_le_of_le_one_left i2 d1; linarith) C0
  have hDb : ∀ k, ‖defect A c S.Y k (t, h)‖ ≤ 1 ∧ ‖defect A c S.Y k (t, h)‖ ≤ S.ε := fun k =>
    ⟨by have := k1 k; linarith, by have := k1 k; linarith⟩
  have X0 : 0 ≤ 6 * |S.K| * C ^ 2 + 4 * B * C := by positivity
  refine ⟨fun k => (k1 k).trans (mul_le_mul_of_nonneg_right (by linarith) (by positivity)), fun k => (hDb k).1,
    k2.trans (add_le_add le_rfl (mul_le_mul_of_nonneg_right (by linarith) (by positivity))), ?_⟩
  set d := fun l => defect A c S.Y l (t, h) with hdef
  have hmem : ∀ l, t + c l * h ∈ Icc a b := fun l => by
    have h1 := mul_nonneg (H.c0 l) i2
    have h2 := mul_le_of_le_one_left i2 (H.c1 l)
    exact ⟨by linarith, by linarith⟩
  have e : h • ∑ l, A 2 l • (f (t + c l * h) (y (t + c l * h) + -d l) - f (t + c l * h) (y (t + c l * h))) =
      h • ∑ l, A 2 l • (f (t + c l * h) (y (t + c l * h) + -d l) - f (t + c l * h) (y (t + c l * h)) - S.A 0 (t + c l * h) (-d l))
      - h • ∑ l, A 2 l • (S.A 0 (t + c l * h) - S.A 0 t) (d l) - h • S.A 0 t (∑ l, A 2 l • d l) := by
    simp only [Fin.sum_univ_three, map_add, map_smul, map_neg, ContinuousLinearMap.sub_apply]
    module
  have hsum : ∀ {v : Fin 3 → E} {D : ℝ}, (∀ l, ‖v l‖ ≤ D) → ‖∑ l, A 2 l • v l‖ ≤ 3 * D := by
    intro v D hv
    have : ∀ l, ‖A 2 l • v l‖ ≤ D := fun l => by
      rw [norm_smul, Real.norm_eq_abs]
      have := mul_le_mul (H.a1 2 l) (hv l) (norm_nonneg _) zero_le_one
      simpa using this
    rw [Fin.sum_univ_three]
    have := norm_add_le_of_le (norm_add_le_of_le (this 0) (this 1)) (this 2)
    linarith
  have hh : ∀ (v : E) {D : ℝ}, ‖v‖ ≤ D → ‖h • v‖ ≤ h * D := by
    intro v D hv
    rw [norm_smul, Real.norm_eq_abs, abs_of_nonneg i2]
    exact mul_le_mul_of_nonneg_left hv i2
  have s1 : ∀ l, ‖f (t + c l * h) (y (t + c l * h) + -d l) - f (t + c l * h) (y (t + c l * h)) - S.A 0 (t + c l * h) (-d l)‖ ≤
      |S.K| * (C * (h ^ 4 + δ * h)) ^ 2 := by
    intro l
    refine (S.lin _ (hmem l) (-d l) (by rw [norm_neg]; exact (hDb l).2)).trans ?_
    rw [norm_neg]
    exact mul_le_mul (le_abs_self _) (pow_le_pow_left₀ (norm_nonneg _) (k1 l) 2) (sq_nonneg _) (abs_nonneg _)
  have s2 : ∀ l, ‖(S.A 0 (t + c l * h) - S.A 0 t) (d l)‖ ≤ B * h * (C * (h ^ 4 + δ * h)) := by
    intro l
    have h1 := mul_nonneg (H.c0 l) i2
    have h2 := mul_le_of_le_one_left i2 (H.c1 l)
    refine (ContinuousLinearMap.le_opNorm _ _).trans (mul_le_mul ?_ (k1 l) (norm_nonneg _) (by positivity))
    exact (hB' t (c l * h) i1 h1 (by linarith)).trans (mul_le_mul_of_nonneg_left h2 B0)
  have s3 : ‖S.A 0 t (∑ l, A 2 l • d l)‖ ≤ B * (C * (h ^ 5 + δ * h)) :=
    (ContinuousLinearMap.le_opNorm _ _).trans (mul_le_mul (hB t ⟨i1, by linarith⟩) k3 (norm_nonneg _) B0)
  rw [e]
  have r1 := hh _ (hsum s1)
  have r2 := hh _ (hsum s2)
  have r3 := hh _ s3
  have r4 := (norm_sub_le _ _).trans (add_le_add ((norm_sub_le _ _).trans (add_le_add r1 r2)) r3)
  refine r4.trans ?_
  have q1 : h * (h ^ 4 + δ * h) ^ 2 ≤ 2 * (h ^ 6 + δ * h ^ 2) := by
    have z1 : (h ^ 4 + δ * h) ^ 2 ≤ 2 * ((h ^ 4) ^ 2 + (δ * h) ^ 2) := by nlinarith [sq_nonneg (h ^ 4 - δ * h)]
    have z2 : h * (h ^ 4) ^ 2 ≤ h ^ 6 := by
      have : h * (h ^ 4) ^ 2 = h ^ 9 := by ring
      rw [this]
      exact pow_le_pow_of_le_one i2 l1 (by norm_num)
    have z3 : h * (δ * h) ^ 2 ≤ δ * h ^ 2 := by
      have : h * (δ * h) ^ 2 = (δ * h) * (δ * h ^ 2) := by ring
      rw [this]
      have : δ * h ≤ 1 := by have := mul_le_of_le_one_left i2 d1; linarith
      exact mul_le_of_le_one_left dh2 this
    have := mul_le_mul_of_nonneg_left z1 i2
    nlinarith
  have q2 : h * (h * (h ^ 4 + δ * h)) ≤ h ^ 6 + δ * h ^ 2 := by
    have : h * (h * (h ^ 4 + δ * h)) = h ^ 6 + h * (δ * h ^ 2) := by ring
    rw [this]
    have := mul_le_of_le_one_left dh2 l1
    linarith
  have q3 : h * (h ^ 5 + δ * h) = h ^ 6 + δ * h ^ 2 := by ring
  have w1 := mul_le_mul_of_nonneg_left q1 (show 0 ≤ 3 * |S.K| * C ^ 2 by positivity)
  have w2 := mul_le_mul_of_nonneg_left q2 (show 0 ≤ 3 * B * C by positivity)
  have w3 : h * (B * (C * (h ^ 5 + δ * h))) = B * C * (h ^ 6 + δ * h ^ 2) := by rw [← q3]; ring
  have w4 : 0 ≤ C * (h ^ 6 + δ * h ^ 2) := by positivity
  rw [w3]
  calc _ = 3 * |S.K| * C ^ 2 * (h * (h ^ 4 + δ * h) ^ 2) + 3 * B * C * (h * (h * (h ^ 4 + δ * h))) + B * C * (h ^ 6 + δ * h ^ 2) := by ring
    _ ≤ _ := by linarith

/-- One step with a residual. -/
theorem Bounds.radau_step {R M L : ℝ} (Bd : Bounds f a b R M L) (S : Setup f y a b) (H : Method A c δ)
    (hy : ∀ t ∈ Icc a b, ‖y t‖ ≤ R - 2) : ∃ C ≥ 0, ∃ h0 > 0, ∀ t h u (z : Fin 3 → E) ρ, a ≤ t → 0 ≤ h → t + h ≤ b → h ≤ h0 →
      (∀ k, ‖u + z k‖ ≤ R) → (∀ k, ‖z k - h • ∑ l, A k l • f (t + c l * h) (u + z l)‖ ≤ ρ) →
      ‖u + z 2 - y (t + h)‖ ≤ (1 + 2 * L * h) * ‖u - y t‖ + C * (h ^ 6 + δ * h ^ 2) + δ * h * M + 2 * ρ := by
  obtain ⟨C, C0, h1, hh1, hle1, hd⟩ := S.defect_effect H
  have d0 := H.δ0
  have L0 := Bd.L0
  refine ⟨2 * C + 12 * L ^ 2 * C, by positivity, min h1 (1 / (12 * L + 1)), by positivity, fun t h u z ρ i1 i2 i3 i4 hz hρ => ?_⟩
  simp only [le_min_iff] at i4
  obtain ⟨g1, g2⟩ := i4
  rw [le_div_iff₀ (by positivity)] at g2
  obtain ⟨k1, k2, k3, k4⟩ := hd t h i1 i2 i3 g1
  have l1 : h ≤ 1 := g1.trans hle1
  have p2 := pow_nonneg i2 2
  have p6 := pow_nonneg i2 6
  have dh2 : 0 ≤ δ * h ^ 2 := mul_nonneg d0 p2
  set d := fun l => defect A c S.Y l (t, h) with hdef
  have hmem : ∀ l, t + c l * h ∈ Icc a b := fun l => by
    have h1 := mul_nonneg (H.c0 l) i2
    have h2 := mul_le_of_le_one_left i2 (H.c1 l)
    exact ⟨by linarith, by linarith⟩
  have hY1 : ∀ l, S.Y 1 (t + c l * h) = f (t + c l * h) (y (t + c l * h)) := fun l => S.ode _ (hmem l)
  have hyl : ∀ l, ‖y (t + c l * h)‖ ≤ R - 2 := fun l => hy _ (hmem l)
  set e : Fin 3 → E := fun k => u + z k - y (t + c k * h) with he
  set e0 := u - y t with he0
  set r : Fin 3 → E := fun k => z k - h • ∑ l, A k l • f (t + c l * h) (u + z l) with hr
  have hrec : ∀ k, e k + d k = e0 + h • ∑ l, A k l • (f (t + c l * h) (u + z l) - f (t + c l * h) (y (t + c l * h))) + r k := by
    intro k
    simp only [he, hdef, he0, hr, defect, hY1, S.zero, Fin.sum_univ_three]
    module
  have lipz : ∀ l, ‖f (t + c l * h) (u + z l) - f (t + c l * h) (y (t + c l * h))‖ ≤ L * ‖e‖ := fun l =>
    (Bd.lip _ (hmem l) _ _ (hz l) ((hyl l).trans (by linarith))).trans
      (mul_le_mul_of_nonneg_left (norm_le_pi_norm e l) L0)
  have hh : ∀ (v : E) {D : ℝ}, ‖v‖ ≤ D → ‖h • v‖ ≤ h * D := by
    intro v D hv
    rw [norm_smul, Real.norm_eq_abs, abs_of_nonneg i2]
    exact mul_le_mul_of_nonneg_left hv i2
  have ed : ∀ k, ‖e k + d k‖ ≤ ‖e0‖ + 3 * h * L * ‖e‖ + ρ := by
    intro k
    rw [hrec k]
    have s1 : ‖∑ l, A k l • (f (t + c l * h) (u + z l) - f (t + c l * h) (y (t + c l * h)))‖ ≤ 3 * (L * ‖e‖) := by
      have : ∀ l, ‖A k l • (f (t + c l * h) (u + z l) - f (t + c l * h) (y (t + c l * h)))‖ ≤ L * ‖e‖ := fun l => by
        rw [norm_smul, Real.norm_eq_abs]
        have := mul_le_mul (H.a1 k l) (lipz l) (norm_nonneg _) zero_le_one
        simpa using this
      rw [Fin.sum_univ_three]
      have := norm_add_le_of_le (norm_add_le_of_le (this 0) (this 1)) (this 2)
      linarith
    have := norm_add_le_of_le (norm_add_le_of_le (le_refl ‖e0‖) (hh _ s1)) (hρ k)
    refine this.trans_eq (by ring)
  have hρ0 : 0 ≤ ρ := (norm_nonneg _).trans (hρ 0)
  set D := C * (h ^ 4 + δ * h) with hD
  have D0 : 0 ≤ D := by positivity
  have hLh : L * h ≤ 1 / 12 := by linarith
  have Lh0 : 0 ≤ L * h := mul_nonneg L0 i2
  have Em : ‖e‖ ≤ 2 * (‖e0‖ + D + ρ) := by
    have : ‖e‖ ≤ ‖e0‖ + 3 * h * L * ‖e‖ + ρ + D := by
      refine (pi_norm_le_iff_of_nonneg (by positivity)).2 fun k => ?_
      have := norm_sub_le_of_le (ed k) (k1 k)
      rw [add_sub_cancel_right] at this
      exact this
    have h3 := mul_le_mul_of_nonneg_right hLh (norm_nonneg e)
    have n0 := norm_nonneg e
    nlinarith
  have last : e 2 = e0 + h • ∑ l, A 2 l • (f (t + c l * h) (u + z l) - f (t + c l * h) (y (t + c l * h) + -d l)) +
      h • ∑ l, A 2 l • (f (t + c l * h) (y (t + c l * h) + -d l) - f (t + c l * h) (y (t + c l * h))) - d 2 + r 2 := by
    have := hrec 2
    rw [← eq_sub_iff_add_eq] at this
    rw [this]
    simp only [Fin.sum_univ_three]
    module
  have s2 : ‖∑ l, A 2 l • (f (t + c l * h) (u + z l) - f (t + c l * h) (y (t + c l * h) + -d l))‖ ≤
      1.01 * (L * (‖e0‖ + 3 * h * L * ‖e‖ + ρ)) := by
    refine (norm_sum_le _ _).trans ((Finset.sum_le_sum (g := fun l => |A 2 l| * (L * (‖e0‖ + 3 * h * L * ‖e‖ + ρ)))
      fun l _ => ?_).trans ?_)
    · rw [norm_smul, Real.norm_eq_abs]
      refine mul_le_mul_of_nonneg_left ?_ (abs_nonneg _)
      refine (Bd.lip _ (hmem l) _ _ (hz l) ?_).trans (mul_le_mul_of_nonneg_left ?_ L0)
      · have : ‖-d l‖ ≤ 1 := by rw [norm_neg]; exact k2 l
        exact (norm_add_le_of_le (hyl l) this).trans (by linarith)
      · have : u + z l - (y (t + c l * h) + -d l) = e l + d l := by simp only [he]; abel
        rw [this]; exact ed l
    · rw [← Finset.sum_mul]
      exact mul_le_mul_of_nonneg_right H.b1 (by positivity)
  have hM : ‖S.Y 1 t‖ ≤ M := by
    rw [S.ode t ⟨i1, by linarith⟩]
    exact Bd.bd t ⟨i1, by linarith⟩ _ ((hy t ⟨i1, by linarith⟩).trans (by linarith))
  have k3' : ‖d 2‖ ≤ δ * h * M + C * (h ^ 6 + δ * h ^ 2) :=
    k3.trans (add_le_add (mul_le_mul_of_nonneg_left hM (mul_nonneg d0 i2)) le_rfl)
  have fin := norm_add_le_of_le (norm_sub_le_of_le (norm_add_le_of_le (norm_add_le_of_le (le_refl ‖e0‖) (hh _ s2)) k4) k3') (hρ 2)
  have el : u + z 2 - y (t + h) = e 2 := by simp only [he, H.c2, one_mul]
  rw [el, last]
  refine fin.trans ?_
  have w1 : 3 * h * L * ‖e‖ ≤ 6 * (L * h) * (‖e0‖ + D + ρ) := by
    have := mul_le_mul_of_nonneg_left Em (show 0 ≤ 3 * (L * h) by positivity)
    linarith
  have w2 : L * h * (‖e0‖ + 3 * h * L * ‖e‖ + ρ) ≤ L * h * (1.5 * ‖e0‖ + 6 * (L * h) * D + 1.5 * ρ) := by
    refine mul_le_mul_of_nonneg_left ?_ Lh0
    have n0 := norm_nonneg e0
    have a1 := mul_le_mul_of_nonneg_right hLh n0
    have a2 := mul_le_mul_of_nonneg_right hLh hρ0
    nlinarith
  have w3 : (L * h) * (6 * (L * h) * D) ≤ 6 * L ^ 2 * C * (h ^ 6 + δ * h ^ 2) := by
    have : (L * h) * (6 * (L * h) * D) = 6 * L ^ 2 * C * (h ^ 6 + h * (δ * h ^ 2)) := by rw [hD]; ring
    rw [this]
    refine mul_le_mul_of_nonneg_left ?_ (by positivity)
    have := mul_le_of_le_one_left dh2 l1
    linarith
  have n0 := norm_nonneg e0
  have w4 : L * h * ρ ≤ 1 / 12 * ρ := mul_le_mul_of_nonneg_right hLh hρ0
  have w5 := mul_nonneg Lh0 n0
  have w6 : 0 ≤ L ^ 2 * C * (h ^ 6 + δ * h ^ 2) := by positivity
  have e1 : h * (1.01 * (L * (‖e0‖ + 3 * h * L * ‖e‖ + ρ))) = 1.01 * (L * h * (‖e0‖ + 3 * h * L * ‖e‖ + ρ)) := by ring
  rw [e1]
  have e2 : L * h * (1.5 * ‖e0‖ + 6 * (L * h) * D + 1.5 * ρ) = 1.5 * (L * h * ‖e0‖) + (L * h) * (6 * (L * h) * D) + 1.5 * (L * h * ρ) := by ring
  rw [e2] at w2
  have e3 : (1 + 2 * L * h) * ‖e0‖ = ‖e0‖ + 2 * (L * h * ‖e0‖) := by ring
  have e4 : (2 * C + 12 * L ^ 2 * C) * (h ^ 6 + δ * h ^ 2) = 2 * (C * (h ^ 6 + δ * h ^ 2)) + 12 * (L ^ 2 * C * (h ^ 6 + δ * h ^ 2)) := by ring
  rw [e3, e4]
  linarith

end
end Cyphus.Conv
