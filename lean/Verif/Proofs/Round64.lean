import Verif.Proofs.Sample64
import Verif.Spec.Double
/-!
# Rounding errors of the operations in double precision
-/

namespace Cyphus
open X
set_option linter.unusedSectionVars false
set_option autoImplicit false
noncomputable section

/-- The unit roundoff of double precision. -/
abbrev unit64 : ℝ := Spec.roundoff

/-- Half of the smallest positive number. -/
def tiny64 : ℝ := 2 ^ (-1075 : ℤ)

/-- Numbers up to this one do not overflow. -/
def big64 : ℝ := 2 ^ (1000 : ℤ)

theorem le_big64 {e : ℤ} (h : e ≤ 1000) : 2 ^ e ≤ big64 := two_pow_le h
theorem unit64_pos : 0 < unit64 := two_pow_pos _
theorem tiny64_pos : 0 < tiny64 := two_pow_pos _
theorem unit64_le : unit64 ≤ 1e-15 := by unfold unit64 Spec.roundoff; norm_num
theorem tiny64_le {e : ℤ} (h : -1075 ≤ e) : tiny64 ≤ 2 ^ e := two_pow_le h

theorem roundPos_near {x : ℝ} (h : 0 ≤ x) :
    (|roundPos x - x| ≤ unit64 * x ∧ |roundPos x - x| ≤ unit64 * roundPos x) ∨
      (ulpExp x = -1074 ∧ x < 2 ^ (-1021 : ℤ) ∧ |roundPos x - x| ≤ tiny64) := by
  obtain h | rfl := h.lt_or_eq
  swap
  · left; simp [roundPos_zero]
  have e := roundPos_err x
  have hl : (2 : ℝ) ^ Int.log 2 x ≤ x := by
    have := Int.zpow_log_le_self (b := 2) one_lt_two h; exact_mod_cast this
  rcases ulpExp_cases x with h1 | ⟨h1, h2⟩
  · refine .inr ⟨h1, ?_, ?_⟩
    · have h3 : Int.log 2 x - 52 ≤ -1074 := by unfold ulpExp at h1; omega
      have h4 : x < (2 : ℝ) ^ (Int.log 2 x + 1) := by
        have := Int.lt_zpow_succ_log_self (b := 2) one_lt_two x; exact_mod_cast this
      exact h4.trans_le (two_pow_le (by omega))
    · refine e.trans_eq ?_
      rw [h1, tiny64, show (-1075 : ℤ) = -1074 - 1 by norm_num, zpow_sub_one₀ two_ne_zero]
      ring
  · by_cases h3 : ulpExp x = -1074
    · refine .inr ⟨h3, ?_, ?_⟩
      · have h4 : x < (2 : ℝ) ^ (Int.log 2 x + 1) := by
          have := Int.lt_zpow_succ_log_self (b := 2) one_lt_two x; exact_mod_cast this
        exact h4.trans_le (two_pow_le (by omega))
      · refine e.trans_eq ?_
        rw [h3, tiny64, show (-1075 : ℤ) = -1074 - 1 by norm_num, zpow_sub_one₀ two_ne_zero]
        ring
    · left
      have h4 := le_roundPos h h3
      have e1 : (2 : ℝ) ^ ulpExp x / 2 = unit64 * 2 ^ Int.log 2 x := by
        rw [h2, unit64, Spec.roundoff, two_pow_mul, show (-53 : ℤ) + Int.log 2 x = Int.log 2 x - 52 - 1 by ring,
          zpow_sub_one₀ two_ne_zero]
        ring
      rw [e1] at e
      rw [h2, show 52 + (Int.log 2 x - 52) = Int.log 2 x by ring] at h4
      exact ⟨e.trans (mul_le_mul_of_nonneg_left hl unit64_pos.le), e.trans (mul_le_mul_of_nonneg_left h4 unit64_pos.le)⟩

/-- Rounding changes a number by at most one unit in the last place, relative to the number and to the result. -/
theorem roundUnb_near (x : ℝ) :
    (|roundUnb x - x| ≤ unit64 * |x| ∧ |roundUnb x - x| ≤ unit64 * |roundUnb x|) ∨
      (ulpExp |x| = -1074 ∧ |x| < 2 ^ (-1021 : ℤ) ∧ |roundUnb x - x| ≤ tiny64) := by
  unfold roundUnb
  split
  · rename_i h
    have := roundPos_near h
    rwa [abs_of_nonneg h, abs_of_nonneg (roundPos_nonneg h)]
  · rename_i h
    have h' : 0 ≤ -x := by linarith
    have := roundPos_near h'
    rwa [abs_of_neg (not_le.1 h), abs_neg, abs_of_nonneg (roundPos_nonneg h'),
      show -roundPos (-x) - x = -(roundPos (-x) - -x) by ring, abs_neg]

theorem roundUnb_err (x : ℝ) : |roundUnb x - x| ≤ unit64 * |x| + tiny64 := by
  have h1 := unit64_pos
  have h2 := tiny64_pos
  have : 0 ≤ unit64 * |x| := by positivity
  rcases roundUnb_near x with h | h
  · linarith [h.1]
  · linarith [h.2.2]

/-- No underflow for numbers which are not tiny. -/
theorem roundUnb_normal {x : ℝ} (h : 2 ^ (-1021 : ℤ) ≤ |x|) : |roundUnb x - x| ≤ unit64 * |x| := by
  rcases roundUnb_near x with h1 | h1
  · exact h1.1
  · linarith [h1.2.1]

/-- Nor for multiples of the smallest number. -/
theorem roundUnb_grid {m : ℤ} {x : ℝ} (hx : x = m * 2 ^ (-1074 : ℤ)) :
    |roundUnb x - x| ≤ unit64 * |x| ∧ |roundUnb x - x| ≤ unit64 * |roundUnb x| := by
  rcases roundUnb_near x with h1 | ⟨h1, -, -⟩
  · exact h1
  · have hp : ∀ (k : ℤ) (z : ℝ), z = k * 2 ^ (-1074 : ℤ) → ulpExp z = -1074 → roundPos z = z := by
      intro k z hz hu
      unfold roundPos
      rw [hu, hz, mul_div_assoc, div_self (two_pow_pos _).ne', mul_one, roundEven_int]
    have : roundUnb x = x := by
      unfold roundUnb
      split
      · rename_i h
        rw [abs_of_nonneg h] at h1
        exact hp m x hx h1
      · rename_i h
        rw [abs_of_neg (not_le.1 h)] at h1
        rw [hp (-m) (-x) (by rw [hx]; push_cast; ring) h1, neg_neg]
    have h2 := unit64_pos
    rw [this, sub_self, abs_zero]
    constructor <;> positivity

theorem Rep64.grid {x : ℝ} (h : Rep64 x) : ∃ m : ℤ, x = m * 2 ^ (-1074 : ℤ) := by
  obtain ⟨m, e, -, h1, -, rfl⟩ := h
  obtain ⟨k, hk⟩ := Int.eq_ofNat_of_zero_le (show 0 ≤ e + 1074 by omega)
  refine ⟨m * 2 ^ k, ?_⟩
  rw [show e = (k : ℤ) + (-1074) by omega, ← two_pow_mul]
  push_cast
  rw [zpow_natCast]
  ring

theorem round64_eq {x : ℝ} (h : |x| ≤ big64) : round64 x = fin (roundUnb x) := by
  have e := roundUnb_err x
  have hu := unit64_le
  have h0 : unit64 * |x| ≤ 1 * |x| := mul_le_mul_of_nonneg_right (by linarith) (abs_nonneg _)
  have h1 : tiny64 ≤ big64 := two_pow_le (by norm_num)
  have h2 : huge = 2 ^ (24 : ℤ) * big64 := by
    rw [huge, big64, two_pow_mul]; congr 1
  have h3 : |roundUnb x| ≤ 3 * big64 := by
    have := abs_sub_abs_le_abs_sub (roundUnb x) x
    linarith
  have h4 : 0 < big64 := two_pow_pos 1000
  obtain ⟨h5, h6⟩ := abs_le.1 h3
  norm_num at h2
  unfold round64
  rw [if_neg, if_neg]
  · rw [h2, not_le]; linarith
  · rw [h2, not_le]; linarith

theorem round64_fin {x y : ℝ} (h : round64 x = fin y) : y = roundUnb x := by
  unfold round64 at h
  split_ifs at h
  exact (fin_inj.1 h).symm

namespace B64

variable {a b : B64} {p q : ℝ}

theorem add_near (ha : a.x = fin p) (hb : b.x = fin q) (h : |p + q| ≤ big64) :
    ∃ r, (a + b).x = fin r ∧ |r - (p + q)| ≤ unit64 * |p + q| := by
  refine ⟨_, by rw [add_x, ha, hb, add_fin, round_fin, round64_eq h], ?_⟩
  obtain ⟨m, hm⟩ := (a.rep p ha).grid
  obtain ⟨m', hm'⟩ := (b.rep q hb).grid
  exact (roundUnb_grid (m := m + m') (by rw [hm, hm']; push_cast; ring)).1

theorem add_fine {r : ℝ} (ha : a.x = fin p) (hb : b.x = fin q) (h : (a + b).x = fin r) : |r - (p + q)| ≤ unit64 * |r| := by
  rw [add_x, ha, hb, add_fin, round_fin] at h
  rw [round64_fin h]
  obtain ⟨m, hm⟩ := (a.rep p ha).grid
  obtain ⟨m', hm'⟩ := (b.rep q hb).grid
  exact (roundUnb_grid (m := m + m') (by rw [hm, hm']; push_cast; ring)).2

theorem mul_near (ha : a.x = fin p) (hb : b.x = fin q) (h : |p * q| ≤ big64) :
    ∃ r, (a * b).x = fin r ∧ |r - p * q| ≤ unit64 * |p * q| + tiny64 :=
  ⟨_, by rw [mul_x, ha, hb, mul_fin, round_fin, round64_eq h], roundUnb_err _⟩

/-- A constant, accurate to one rounding. -/
def Coef (a : B64) (c : ℝ) : Prop := ∃ r, a.x = fin r ∧ |r - c| ≤ unit64 * |c|

theorem coef_lit (m : ℕ) (s : Bool) (e : ℕ) {c : ℝ} (h : (OfScientific.ofScientific m s e : ℝ) = c) (h1 : 2 ^ (-10 : ℤ) ≤ |c|)
    (h2 : |c| ≤ 32) : Coef (OfScientific.ofScientific m s e : B64) c := by
  subst h
  refine ⟨_, by rw [lit_x, round64_eq]; exact h2.trans ((show (32 : ℝ) = 2 ^ (5 : ℤ) by norm_num).trans_le (le_big64 (by norm_num))), roundUnb_normal ?_⟩
  exact (two_pow_le (by norm_num)).trans h1

theorem coef_div {u v c : ℝ} (ha : a.x = fin u) (hb : b.x = fin v) (h : u / v = c) (h1 : 2 ^ (-10 : ℤ) ≤ |c|)
    (h2 : |c| ≤ 32) (h3 : v ≠ 0) : Coef (a / b) c := by
  subst h
  refine ⟨_, by rw [div_x, ha, hb, div_fin h3, round_fin, round64_eq]; exact h2.trans ((show (32 : ℝ) = 2 ^ (5 : ℤ) by norm_num).trans_le (le_big64 (by norm_num))), roundUnb_normal ?_⟩
  exact (two_pow_le (by norm_num)).trans h1

theorem lit_fin (m e : ℕ) (k : ℕ) (h : (OfScientific.ofScientific m true e : ℝ) = k) (hk : k ≤ 2 ^ 53) :
    (OfScientific.ofScientific m true e : B64).x = fin k := by
  rw [lit_x, h, round64_rep (rep_nat hk)]

end B64
end
end Cyphus
