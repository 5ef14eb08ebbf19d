import Mathlib.Analysis.Complex.Basic
import Mathlib.Analysis.Complex.Norm
import Mathlib.Analysis.Complex.Exponential
import Mathlib.Analysis.Normed.Field.Basic
import Mathlib.Tactic.LinearCombination
import Mathlib.Tactic.Positivity
import Mathlib.Tactic.GCongr
/-!
# Estimates for the stability function of the Radau IIA method

The constants are perturbed as those of the code are.
-/

namespace Cyphus
set_option autoImplicit false
set_option linter.unusedSectionVars false

noncomputable section

/-- The stability function of the Radau IIA method of order 5: the subdiagonal Padé approximation of the exponential
function (E. Hairer, G. Wanner, "Solving Ordinary Differential Equations II", table IV.3.1). -/
def Spec.radauR (z : ℂ) : ℂ := (1 + 2 / 5 * z + z ^ 2 / 20) / (1 - 3 / 5 * z + 3 / 20 * z ^ 2 - z ^ 3 / 60)

namespace RadauR

/-- The numerator of `(R z - 1) / z`. -/
def num (z : ℂ) : ℂ := 60 - 6 * z + z ^ 2
/-- The denominator. -/
def den (z : ℂ) : ℂ := 60 - 36 * z + 9 * z ^ 2 - z ^ 3

/-- Bounds for the constants. -/
structure Consts (γ α β τ s1 s2 s3 : ℝ) : Prop where
  γ1 : 3.6 ≤ γ
  γ2 : γ ≤ 3.7
  α1 : 2.68 ≤ α
  α2 : α ≤ 2.7
  β1 : 3.05 ≤ β
  β2 : β ≤ 3.051
  τ1 : 0.9 ≤ τ
  τ2 : τ ≤ 1
  s11 : 5 ≤ s1
  s12 : s1 ≤ 5.3
  s21 : -4.1 ≤ s2
  s22 : s2 ≤ -4
  s31 : 1.4 ≤ s3
  s32 : s3 ≤ 1.5
  n0 : |τ * s1 * (α ^ 2 + β ^ 2) + (α * s2 + β * s3) * γ - 60| ≤ 2e-14
  n1 : |-2 * α * τ * s1 - s2 * γ - (α * s2 + β * s3) + 6| ≤ 2e-14
  n2 : |τ * s1 + s2 - 1| ≤ 2e-14
  m0 : |γ * (α ^ 2 + β ^ 2) - 60| ≤ 2e-14
  m1 : |α ^ 2 + β ^ 2 + 2 * α * γ - 36| ≤ 2e-14
  m2 : |γ + 2 * α - 9| ≤ 2e-14

variable {γ α β τ s1 s2 s3 : ℝ}

theorem normSq (z : ℂ) : ‖z‖ ^ 2 = z.re ^ 2 + z.im ^ 2 := by
  rw [Complex.sq_norm, Complex.normSq_apply]; ring

theorem im_le (z : ℂ) : |z.im| ≤ ‖z‖ := Complex.abs_im_le_norm z

theorem lower1 (C : Consts γ α β τ s1 s2 s3) {x : ℂ} (hx : x.re ≤ 0) : 0.9 * (1 + ‖x‖) ≤ ‖(γ : ℂ) - x‖ := by
  refine abs_le_of_sq_le_sq' ?_ (norm_nonneg _) |>.2
  have h1 := normSq x
  have h2 := normSq ((γ : ℂ) - x)
  simp only [Complex.sub_re, Complex.ofReal_re, Complex.sub_im, Complex.ofReal_im, zero_sub, neg_sq] at h2
  rw [h2]
  have h3 := norm_nonneg x
  have := C.γ1
  have h4 : γ ^ 2 + ‖x‖ ^ 2 ≤ (γ - x.re) ^ 2 + x.im ^ 2 := by
    nlinarith [mul_nonneg (neg_nonneg.2 hx) (by linarith : 0 ≤ γ)]
  have h5 : (3.6 : ℝ) ^ 2 ≤ γ ^ 2 := pow_le_pow_left₀ (by norm_num) this 2
  nlinarith [sq_nonneg (‖x‖ - 4)]

theorem lowerμ (C : Consts γ α β τ s1 s2 s3) {x : ℂ} (hx : x.re ≤ 0) (b : ℝ) (hb : |b| = β) :
    0.3 * (1 + ‖x‖) ^ 2 ≤ ‖(α : ℂ) + b * Complex.I - x‖ ^ 2 := by
  have h1 := normSq x
  have h2 := normSq ((α : ℂ) + b * Complex.I - x)
  simp at h2
  rw [h2]
  have h3 := norm_nonneg x
  have hα := C.α1
  have hβ := C.β1
  have hβ' := C.β2
  have hb2 : b ^ 2 = β ^ 2 := by rw [← hb, sq_abs]
  have h4 : b * x.im ≤ 3.051 * ‖x‖ := by
    calc b * x.im ≤ |b * x.im| := le_abs_self _
      _ = β * |x.im| := by rw [abs_mul, hb]
      _ ≤ 3.051 * ‖x‖ := mul_le_mul hβ' (im_le x) (abs_nonneg _) (by norm_num)
  have h6 : (2.68 : ℝ) ^ 2 ≤ α ^ 2 := pow_le_pow_left₀ (by norm_num) hα 2
  have h7 : (3.05 : ℝ) ^ 2 ≤ β ^ 2 := pow_le_pow_left₀ (by norm_num) hβ 2
  have h8 : α ^ 2 + β ^ 2 + ‖x‖ ^ 2 - 2 * (b * x.im) ≤ (α - x.re) ^ 2 + (b - x.im) ^ 2 := by
    nlinarith [mul_nonneg (neg_nonneg.2 hx) (by linarith : 0 ≤ α)]
  nlinarith [sq_nonneg (‖x‖ - 4.787)]

theorem lower2 (C : Consts γ α β τ s1 s2 s3) {x : ℂ} (hx : x.re ≤ 0) :
    0.3 * (1 + ‖x‖) ^ 2 ≤ ‖((α : ℂ) - x) ^ 2 + (β : ℂ) ^ 2‖ := by
  have hβ : 0 ≤ β := by linarith [C.β1]
  have e : ((α : ℂ) - x) ^ 2 + (β : ℂ) ^ 2 = (α + β * Complex.I - x) * (α + ((-β : ℝ) : ℂ) * Complex.I - x) := by
    push_cast
    linear_combination ((β : ℂ) ^ 2) * Complex.I_sq
  rw [e, norm_mul]
  have h1 := lowerμ C hx β (abs_of_nonneg hβ)
  have h2 := lowerμ C hx (-β) (by rw [abs_neg, abs_of_nonneg hβ])
  refine abs_le_of_sq_le_sq' ?_ (by positivity) |>.2
  rw [mul_pow _ _ 2, mul_pow, pow_two (0.3 : ℝ)]
  calc _ = (0.3 * (1 + ‖x‖) ^ 2) * (0.3 * (1 + ‖x‖) ^ 2) := by ring
    _ ≤ _ := mul_le_mul h1 h2 (by positivity) (by positivity)

/-- The equations of a pass for a component along a left eigenvector. -/
structure Eqs (γ α β s1 s2 s3 : ℝ) (x U e1 e2 e3 W1 W2 W3 : ℂ) : Prop where
  h1 : (γ - x) * W1 = x * (s1 * U + e1)
  h2 : (α - x) * W2 - β * W3 = x * (s2 * U + e2)
  h3 : β * W2 + (α - x) * W3 = x * (s3 * U + e3)

variable {x U e1 e2 e3 W1 W2 W3 : ℂ}

theorem norm_sub_x {a c : ℝ} (ha : |a| ≤ c) (hc : 1 ≤ c) : ‖(a : ℂ) - x‖ ≤ c * (1 + ‖x‖) := by
  calc ‖(a : ℂ) - x‖ ≤ ‖(a : ℂ)‖ + ‖x‖ := norm_sub_le _ _
    _ = |a| + ‖x‖ := by rw [Complex.norm_real, Real.norm_eq_abs]
    _ ≤ _ := by nlinarith [norm_nonneg x]

theorem norm_a {s c : ℝ} {e : ℂ} (hs : |s| ≤ 5.3) (he : ‖e‖ ≤ c * ‖U‖) (hc : c ≤ 0.7) : ‖(s : ℂ) * U + e‖ ≤ 6 * ‖U‖ := by
  calc ‖(s : ℂ) * U + e‖ ≤ ‖(s : ℂ) * U‖ + ‖e‖ := norm_add_le _ _
    _ = |s| * ‖U‖ + ‖e‖ := by rw [norm_mul, Complex.norm_real, Real.norm_eq_abs]
    _ ≤ _ := by nlinarith [norm_nonneg U]

/-- The transformed increments are bounded. -/
theorem Eqs.bound (C : Consts γ α β τ s1 s2 s3) (H : Eqs γ α β s1 s2 s3 x U e1 e2 e3 W1 W2 W3) (hx : x.re ≤ 0)
    {c : ℝ} (hc : c ≤ 0.7) (h1 : ‖e1‖ ≤ c * ‖U‖) (h2 : ‖e2‖ ≤ c * ‖U‖) (h3 : ‖e3‖ ≤ c * ‖U‖) :
    (‖W1‖ ≤ 120 * ‖U‖ ∧ ‖W2‖ ≤ 120 * ‖U‖ ∧ ‖W3‖ ≤ 120 * ‖U‖) ∧
      ‖W1‖ ≤ 120 * (‖x‖ * ‖U‖) ∧ ‖W2‖ ≤ 120 * (‖x‖ * ‖U‖) ∧ ‖W3‖ ≤ 120 * (‖x‖ * ‖U‖) := by
  have a1 := norm_a (s := s1) (abs_le.2 ⟨by linarith [C.s11], C.s12⟩) h1 hc
  have a2 := norm_a (s := s2) (abs_le.2 ⟨by linarith [C.s21], by linarith [C.s22]⟩) h2 hc
  have a3 := norm_a (s := s3) (abs_le.2 ⟨by linarith [C.s31], by linarith [C.s32]⟩) h3 hc
  have hα : ‖(α : ℂ) - x‖ ≤ 2.7 * (1 + ‖x‖) :=
    norm_sub_x (abs_le.2 ⟨by linarith [C.α1], C.α2⟩) (by norm_num)
  have hβ : ‖(β : ℂ)‖ ≤ 3.1 * (1 + ‖x‖) := by
    rw [Complex.norm_real, Real.norm_eq_abs, abs_of_nonneg (by linarith [C.β1])]
    nlinarith [C.β2, norm_nonneg x]
  have l1 := lower1 C hx
  have l2 := lower2 C hx
  have r0 := norm_nonneg x
  have u0 := norm_nonneg U
  suffices h : (‖W1‖ ≤ 120 * ‖U‖ ∧ ‖W1‖ ≤ 120 * (‖x‖ * ‖U‖)) ∧ (‖W2‖ ≤ 120 * ‖U‖ ∧ ‖W2‖ ≤ 120 * (‖x‖ * ‖U‖)) ∧
      ‖W3‖ ≤ 120 * ‖U‖ ∧ ‖W3‖ ≤ 120 * (‖x‖ * ‖U‖) from
    ⟨⟨h.1.1, h.2.1.1, h.2.2.1⟩, h.1.2, h.2.1.2, h.2.2.2⟩
  refine ⟨?_, ?_, ?_⟩
  · have := congrArg norm H.h1
    rw [norm_mul, norm_mul] at this
    have h4 : 0.9 * (1 + ‖x‖) * ‖W1‖ ≤ ‖x‖ * (6 * ‖U‖) :=
      (mul_le_mul_of_nonneg_right l1 (norm_nonneg _)).trans (this.trans_le (mul_le_mul_of_nonneg_left a1 r0))
    constructor <;> nlinarith [norm_nonneg W1, mul_nonneg r0 u0, mul_nonneg r0 (norm_nonneg W1)]
  all_goals
    have key : ∀ {A B W : ℂ}, ‖A‖ ≤ 6 * ‖U‖ → ‖B‖ ≤ 6 * ‖U‖ →
        (((α : ℂ) - x) ^ 2 + (β : ℂ) ^ 2) * W = x * ((α - x) * A + β * B) →
        ‖W‖ ≤ 120 * ‖U‖ ∧ ‖W‖ ≤ 120 * (‖x‖ * ‖U‖) := by
      intro A B W hA hB h
      have := congrArg norm h
      rw [norm_mul, norm_mul] at this
      have h5 : ‖(α - x) * A + β * B‖ ≤ 5.8 * (1 + ‖x‖) * (6 * ‖U‖) := by
        calc ‖(α - x) * A + β * B‖ ≤ ‖(α - x) * A‖ + ‖β * B‖ := norm_add_le _ _
          _ = ‖(α - x)‖ * ‖A‖ + ‖(β : ℂ)‖ * ‖B‖ := by rw [norm_mul, norm_mul]
          _ ≤ 2.7 * (1 + ‖x‖) * (6 * ‖U‖) + 3.1 * (1 + ‖x‖) * (6 * ‖U‖) := by gcongr
          _ = _ := by ring
      have h4 : 0.3 * (1 + ‖x‖) ^ 2 * ‖W‖ ≤ ‖x‖ * (5.8 * (1 + ‖x‖) * (6 * ‖U‖)) :=
        (mul_le_mul_of_nonneg_right l2 (norm_nonneg _)).trans (this.trans_le (mul_le_mul_of_nonneg_left h5 r0))
      have h6 : (1 + ‖x‖) * (0.3 * (1 + ‖x‖) * ‖W‖) ≤ (1 + ‖x‖) * (‖x‖ * (5.8 * (6 * ‖U‖))) := by
        calc _ = 0.3 * (1 + ‖x‖) ^ 2 * ‖W‖ := by ring
          _ ≤ _ := h4
          _ = _ := by ring
      have h7 := le_of_mul_le_mul_left h6 (by linarith)
      constructor <;> nlinarith [norm_nonneg W, mul_nonneg r0 u0, mul_nonneg r0 (norm_nonneg W)]
  · exact key a2 a3 (by linear_combination (α - x) * H.h2 + β * H.h3)
  · refine key a3 (B := -(s2 * U + e2)) (by rwa [norm_neg]) ?_
    linear_combination (α - x) * H.h3 - β * H.h2

/-- The increment of the last stage. -/
theorem Eqs.incr (H : Eqs γ α β s1 s2 s3 x U e1 e2 e3 W1 W2 W3) :
    (γ - x) * ((α - x) ^ 2 + β ^ 2) * (τ * W1 + W2) =
      x * ((τ * s1 * ((α - x) ^ 2 + β ^ 2) + ((α - x) * s2 + β * s3) * (γ - x)) * U +
        (τ * ((α - x) ^ 2 + β ^ 2) * e1 + (γ - x) * ((α - x) * e2 + β * e3))) := by
  linear_combination τ * ((α - x) ^ 2 + β ^ 2) * H.h1 + (γ - x) * ((α - x) * H.h2 + β * H.h3)

/-! ### Bounds for the polynomials -/

/-- The denominator with the constants of the code. -/
def denC (γ α β : ℝ) (x : ℂ) : ℂ := (γ - x) * ((α - x) ^ 2 + β ^ 2)
/-- The numerator with the constants of the code. -/
def numC (γ α β τ s1 s2 s3 : ℝ) (x : ℂ) : ℂ :=
  τ * s1 * ((α - x) ^ 2 + β ^ 2) + ((α - x) * s2 + β * s3) * (γ - x)
/-- The part of the increment due to the defects. -/
def eta (γ α β τ : ℝ) (x e1 e2 e3 : ℂ) : ℂ := τ * ((α - x) ^ 2 + β ^ 2) * e1 + (γ - x) * ((α - x) * e2 + β * e3)

theorem poly2 {p0 p1 p2 : ℝ} {c : ℝ} (h0 : |p0| ≤ c) (h1 : |p1| ≤ c) (h2 : |p2| ≤ c) :
    ‖(p0 : ℂ) + p1 * x + p2 * x ^ 2‖ ≤ c * (1 + ‖x‖) ^ 2 := by
  have r0 := norm_nonneg x
  calc ‖(p0 : ℂ) + p1 * x + p2 * x ^ 2‖ ≤ ‖(p0 : ℂ)‖ + ‖(p1 : ℂ) * x‖ + ‖(p2 : ℂ) * x ^ 2‖ := norm_add₃_le
    _ = |p0| + |p1| * ‖x‖ + |p2| * ‖x‖ ^ 2 := by
      simp only [norm_mul, norm_pow, Complex.norm_real, Real.norm_eq_abs]
    _ ≤ c + c * ‖x‖ + c * ‖x‖ ^ 2 := by gcongr
    _ ≤ _ := by nlinarith [mul_nonneg ((abs_nonneg _).trans h0) r0]

theorem num_diff (C : Consts γ α β τ s1 s2 s3) : ‖numC γ α β τ s1 s2 s3 x - num x‖ ≤ 2e-14 * (1 + ‖x‖) ^ 2 := by
  have := poly2 (x := x) C.n0 C.n1 C.n2
  refine le_trans (le_of_eq ?_) this
  congr 1
  simp only [numC, num]
  push_cast
  ring

theorem den_diff (C : Consts γ α β τ s1 s2 s3) : ‖denC γ α β x - den x‖ ≤ 2e-14 * (1 + ‖x‖) ^ 2 := by
  have := poly2 (x := x) C.m0 (p1 := -(α ^ 2 + β ^ 2 + 2 * α * γ - 36)) (by rw [abs_neg]; exact C.m1) C.m2
  refine le_trans (le_of_eq ?_) this
  congr 1
  simp only [denC, den]
  push_cast
  ring

theorem denC_lower (C : Consts γ α β τ s1 s2 s3) (hx : x.re ≤ 0) : 0.27 * (1 + ‖x‖) ^ 3 ≤ ‖denC γ α β x‖ := by
  rw [denC, norm_mul]
  calc 0.27 * (1 + ‖x‖) ^ 3 = (0.9 * (1 + ‖x‖)) * (0.3 * (1 + ‖x‖) ^ 2) := by ring
    _ ≤ _ := mul_le_mul (lower1 C hx) (lower2 C hx) (by positivity) (norm_nonneg _)

theorem den_sq (x : ℂ) : ‖den x‖ ^ 2 = (60 - 36 * x.re + 9 * (x.re ^ 2 - x.im ^ 2) - (x.re ^ 3 - 3 * x.re * x.im ^ 2)) ^ 2 +
    (-36 * x.im + 18 * x.re * x.im - (3 * x.re ^ 2 * x.im - x.im ^ 3)) ^ 2 := by
  rw [normSq]
  congr 2
  · simp [den, pow_succ]; ring
  · simp [den, pow_succ]; ring

theorem top_sq (x : ℂ) : ‖(60 : ℂ) + 24 * x + 3 * x ^ 2‖ ^ 2 = (60 + 24 * x.re + 3 * (x.re ^ 2 - x.im ^ 2)) ^ 2 +
    (24 * x.im + 6 * x.re * x.im) ^ 2 := by
  rw [normSq]
  congr 2
  · simp [pow_succ]
  · simp [pow_succ]; ring

theorem den_ge {x : ℂ} (hx : x.re ≤ 0) : 60 ≤ ‖den x‖ := by
  refine abs_le_of_sq_le_sq' ?_ (norm_nonneg _) |>.2
  rw [den_sq]
  obtain ⟨y, hy, e⟩ : ∃ y : ℝ, 0 ≤ y ∧ x.re = -y := ⟨-x.re, by linarith, by ring⟩
  rw [e]
  generalize x.im = b
  have e : (60 - 36 * -y + 9 * ((-y) ^ 2 - b ^ 2) - ((-y) ^ 3 - 3 * -y * b ^ 2)) ^ 2 +
      (-36 * b + 18 * -y * b - (3 * (-y) ^ 2 * b - b ^ 3)) ^ 2 - 60 ^ 2 =
      4320 * y + 216 * b ^ 2 + 2376 * y ^ 2 + 768 * y ^ 3 + 153 * y ^ 4 + 18 * y ^ 5 + y ^ 6 + 9 * b ^ 4 + b ^ 6 +
        288 * y * b ^ 2 + 162 * y ^ 2 * b ^ 2 + 36 * y ^ 3 * b ^ 2 + 18 * y * b ^ 4 + 3 * y ^ 4 * b ^ 2 + 3 * y ^ 2 * b ^ 4 := by
    ring
  have : 0 ≤ 4320 * y + 216 * b ^ 2 + 2376 * y ^ 2 + 768 * y ^ 3 + 153 * y ^ 4 + 18 * y ^ 5 + y ^ 6 + 9 * b ^ 4 + b ^ 6 +
        288 * y * b ^ 2 + 162 * y ^ 2 * b ^ 2 + 36 * y ^ 3 * b ^ 2 + 18 * y * b ^ 4 + 3 * y ^ 4 * b ^ 2 + 3 * y ^ 2 * b ^ 4 := by
    positivity
  linarith

theorem top_le {x : ℂ} (hx : x.re ≤ 0) : ‖(60 : ℂ) + 24 * x + 3 * x ^ 2‖ ≤ ‖den x‖ := by
  refine abs_le_of_sq_le_sq' ?_ (norm_nonneg _) |>.2
  rw [den_sq, top_sq]
  obtain ⟨y, hy, e⟩ : ∃ y : ℝ, 0 ≤ y ∧ x.re = -y := ⟨-x.re, by linarith, by ring⟩
  rw [e]
  generalize x.im = b
  have e : (60 - 36 * -y + 9 * ((-y) ^ 2 - b ^ 2) - ((-y) ^ 3 - 3 * -y * b ^ 2)) ^ 2 +
      (-36 * b + 18 * -y * b - (3 * (-y) ^ 2 * b - b ^ 3)) ^ 2 -
      ((60 + 24 * -y + 3 * ((-y) ^ 2 - b ^ 2)) ^ 2 + (24 * b + 6 * -y * b) ^ 2) =
      b ^ 6 + 7200 * y + 432 * y * b ^ 2 + 18 * y * b ^ 4 + 1440 * y ^ 2 + 144 * y ^ 2 * b ^ 2 + 3 * y ^ 2 * b ^ 4 +
        912 * y ^ 3 + 36 * y ^ 3 * b ^ 2 + 144 * y ^ 4 + 3 * y ^ 4 * b ^ 2 + 18 * y ^ 5 + y ^ 6 := by ring
  have : 0 ≤ b ^ 6 + 7200 * y + 432 * y * b ^ 2 + 18 * y * b ^ 4 + 1440 * y ^ 2 + 144 * y ^ 2 * b ^ 2 + 3 * y ^ 2 * b ^ 4 +
        912 * y ^ 3 + 36 * y ^ 3 * b ^ 2 + 144 * y ^ 4 + 3 * y ^ 4 * b ^ 2 + 18 * y ^ 5 + y ^ 6 := by positivity
  linarith

theorem den_ne {x : ℂ} (hx : x.re ≤ 0) : den x ≠ 0 := by
  rw [← norm_pos_iff]; linarith [den_ge hx]

theorem radauR_eq {x : ℂ} : Spec.radauR x = (60 + 24 * x + 3 * x ^ 2) / den x := by
  have e : (1 : ℂ) - 3 / 5 * x + 3 / 20 * x ^ 2 - x ^ 3 / 60 = den x / 60 := by simp only [den]; ring
  have e' : (1 : ℂ) + 2 / 5 * x + x ^ 2 / 20 = (60 + 24 * x + 3 * x ^ 2) / 60 := by ring
  rw [Spec.radauR, e, e', div_div_div_cancel_right₀ (by norm_num)]

theorem radauR_sub {x : ℂ} (h : den x ≠ 0) : Spec.radauR x = 1 + x * num x / den x := by
  rw [radauR_eq]
  field_simp
  simp only [den, num]
  ring

theorem radauR_le {x : ℂ} (hx : x.re ≤ 0) : ‖Spec.radauR x‖ ≤ 1 := by
  rw [radauR_eq, norm_div]
  exact div_le_one_of_le₀ (top_le hx) (norm_nonneg _)

theorem den_le (x : ℂ) : ‖den x‖ ≤ 60 * (1 + ‖x‖) ^ 3 := by
  have r0 := norm_nonneg x
  have : ‖den x‖ ≤ ‖(60 : ℂ)‖ + ‖36 * x‖ + ‖9 * x ^ 2‖ + ‖x ^ 3‖ := by
    rw [den]
    exact (norm_sub_le _ _).trans (add_le_add_left ((norm_add_le _ _).trans (add_le_add_left (norm_sub_le _ _) _)) _)
  simp only [norm_mul, norm_pow, Complex.norm_ofNat] at this
  nlinarith [pow_nonneg r0 2, pow_nonneg r0 3]

theorem num_le (x : ℂ) : ‖num x‖ ≤ 60 * (1 + ‖x‖) ^ 2 := by
  have r0 := norm_nonneg x
  have : ‖num x‖ ≤ ‖(60 : ℂ)‖ + ‖6 * x‖ + ‖x ^ 2‖ := by
    rw [num]
    exact (norm_add_le _ _).trans (add_le_add_left (norm_sub_le _ _) _)
  simp only [norm_mul, norm_pow, Complex.norm_ofNat] at this
  nlinarith [pow_nonneg r0 2, pow_nonneg r0 3]

theorem den_lower (C : Consts γ α β τ s1 s2 s3) (hx : x.re ≤ 0) : 0.26 * (1 + ‖x‖) ^ 3 ≤ ‖den x‖ := by
  have h1 := denC_lower C hx
  have h2 := den_diff (x := x) C
  have h3 : ‖denC γ α β x‖ ≤ ‖denC γ α β x - den x‖ + ‖den x‖ := by
    simpa using norm_add_le (denC γ α β x - den x) (den x)
  have h4 : (1 + ‖x‖) ^ 2 ≤ (1 + ‖x‖) ^ 3 := pow_le_pow_right₀ (by linarith [norm_nonneg x]) (by norm_num)
  nlinarith

theorem eta_le (C : Consts γ α β τ s1 s2 s3) {c u : ℝ} (h1 : ‖e1‖ ≤ c * u) (h2 : ‖e2‖ ≤ c * u)
    (h3 : ‖e3‖ ≤ c * u) : ‖eta γ α β τ x e1 e2 e3‖ ≤ 40 * (1 + ‖x‖) ^ 2 * (c * u) := by
  have r0 := norm_nonneg x
  have k0 : 0 ≤ c * u := (norm_nonneg _).trans h1
  have hα : ‖(α : ℂ) - x‖ ≤ 2.7 * (1 + ‖x‖) :=
    norm_sub_x (abs_le.2 ⟨by linarith [C.α1], C.α2⟩) (by norm_num)
  have hγ : ‖(γ : ℂ) - x‖ ≤ 3.7 * (1 + ‖x‖) :=
    norm_sub_x (abs_le.2 ⟨by linarith [C.γ1], C.γ2⟩) (by norm_num)
  have hβ : ‖(β : ℂ)‖ ≤ 3.1 * (1 + ‖x‖) := by
    rw [Complex.norm_real, Real.norm_eq_abs, abs_of_nonneg (by linarith [C.β1])]
    nlinarith [C.β2, norm_nonneg x]
  have hτ : ‖(τ : ℂ)‖ ≤ 1 := by
    rw [Complex.norm_real, Real.norm_eq_abs, abs_of_nonneg (by linarith [C.τ1])]
    exact C.τ2
  have hD : ‖((α : ℂ) - x) ^ 2 + (β : ℂ) ^ 2‖ ≤ (2.7 * (1 + ‖x‖)) ^ 2 + (3.1 * (1 + ‖x‖)) ^ 2 := by
    refine (norm_add_le _ _).trans ?_
    rw [norm_pow, norm_pow]
    gcongr
  calc ‖eta γ α β τ x e1 e2 e3‖ ≤ ‖(τ : ℂ) * ((α - x) ^ 2 + β ^ 2) * e1‖ + ‖(γ - x) * ((α - x) * e2 + β * e3)‖ :=
        norm_add_le _ _
    _ ≤ 1 * ((2.7 * (1 + ‖x‖)) ^ 2 + (3.1 * (1 + ‖x‖)) ^ 2) * (c * u) +
        (3.7 * (1 + ‖x‖)) * ((2.7 * (1 + ‖x‖)) * (c * u) + (3.1 * (1 + ‖x‖)) * (c * u)) := by
      rw [norm_mul, norm_mul, norm_mul]
      have : ‖((α : ℂ) - x) * e2 + β * e3‖ ≤ (2.7 * (1 + ‖x‖)) * (c * u) + (3.1 * (1 + ‖x‖)) * (c * u) := by
        refine (norm_add_le _ _).trans ?_
        rw [norm_mul, norm_mul]
        gcongr
      gcongr
    _ ≤ _ := by nlinarith [mul_nonneg (pow_nonneg (by linarith : 0 ≤ 1 + ‖x‖) 2) k0]

/-- The increment, compared with the stability function. -/
theorem Eqs.stability (C : Consts γ α β τ s1 s2 s3) (H : Eqs γ α β s1 s2 s3 x U e1 e2 e3 W1 W2 W3) (hx : x.re ≤ 0)
    (h1 : ‖e1‖ ≤ 1e-16 * ‖U‖) (h2 : ‖e2‖ ≤ 1e-16 * ‖U‖) (h3 : ‖e3‖ ≤ 1e-16 * ‖U‖) :
    ‖U + (τ * W1 + W2) - Spec.radauR x * U‖ ≤ 1e-10 * ‖U‖ := by
  have r0 := norm_nonneg x
  have hd := den_ne hx
  have hi : denC γ α β x * (τ * W1 + W2) = x * (numC γ α β τ s1 s2 s3 x * U + eta γ α β τ x e1 e2 e3) := H.incr
  set Z := τ * W1 + W2
  set η := eta γ α β τ x e1 e2 e3 with hη
  have k1 := denC_lower C hx
  have k2 := den_lower C hx
  have k3 := eta_le (x := x) C h1 h2 h3
  rw [← hη] at k3
  have e : denC γ α β x * den x * (U + Z - Spec.radauR x * U) =
      x * (den x * (numC γ α β τ s1 s2 s3 x - num x) * U + den x * η - num x * (denC γ α β x - den x) * U) := by
    have : den x * (U + Z - Spec.radauR x * U) = den x * Z - x * num x * U := by
      rw [radauR_sub hd]; field_simp; ring
    rw [mul_assoc, this]
    linear_combination den x * hi
  have e' := congrArg norm e
  rw [norm_mul, norm_mul, norm_mul] at e'
  have k4 : ‖den x * (numC γ α β τ s1 s2 s3 x - num x) * U + den x * η - num x * (denC γ α β x - den x) * U‖ ≤
      2.7e-12 * (1 + ‖x‖) ^ 5 * ‖U‖ := by
    calc _ ≤ ‖den x * (numC γ α β τ s1 s2 s3 x - num x) * U‖ + ‖den x * η‖ + ‖num x * (denC γ α β x - den x) * U‖ :=
          (norm_sub_le _ _).trans (add_le_add_left (norm_add_le _ _) _)
      _ ≤ (60 * (1 + ‖x‖) ^ 3) * (2e-14 * (1 + ‖x‖) ^ 2) * ‖U‖ +
          (60 * (1 + ‖x‖) ^ 3) * (40 * (1 + ‖x‖) ^ 2 * (1e-16 * ‖U‖)) +
          (60 * (1 + ‖x‖) ^ 2) * (2e-14 * (1 + ‖x‖) ^ 2) * ‖U‖ := by
        rw [norm_mul, norm_mul, norm_mul, norm_mul, norm_mul]
        have g1 := den_le x
        have g2 := num_le x
        have g3 := num_diff (x := x) C
        have g4 := den_diff (x := x) C
        exact add_le_add (add_le_add (mul_le_mul_of_nonneg_right (mul_le_mul g1 g3 (norm_nonneg _) (by positivity))
          (norm_nonneg _)) (mul_le_mul g1 k3 (norm_nonneg _) (by positivity)))
          (mul_le_mul_of_nonneg_right (mul_le_mul g2 g4 (norm_nonneg _) (by positivity)) (norm_nonneg _))
      _ ≤ (60 * (1 + ‖x‖) ^ 3) * (2e-14 * (1 + ‖x‖) ^ 2) * ‖U‖ +
          (60 * (1 + ‖x‖) ^ 3) * (40 * (1 + ‖x‖) ^ 2 * (1e-16 * ‖U‖)) +
          (60 * (1 + ‖x‖) ^ 2) * (2e-14 * (1 + ‖x‖) ^ 2) * (1 + ‖x‖) * ‖U‖ := by
        exact add_le_add le_rfl (mul_le_mul_of_nonneg_right (le_mul_of_one_le_right (by positivity) (by linarith))
          (norm_nonneg _))
      _ = 2.64e-12 * ((1 + ‖x‖) ^ 5 * ‖U‖) := by ring
      _ ≤ 2.7e-12 * ((1 + ‖x‖) ^ 5 * ‖U‖) := by gcongr; norm_num
      _ = _ := by ring
  set d := ‖U + Z - Spec.radauR x * U‖
  have k5 : (0.27 * (1 + ‖x‖) ^ 3) * (0.26 * (1 + ‖x‖) ^ 3) * d ≤ ‖denC γ α β x‖ * ‖den x‖ * d := by
    gcongr
  have k6 : (1 + ‖x‖) ^ 6 * (0.0702 * d) ≤ (1 + ‖x‖) ^ 6 * (2.7e-12 * ‖U‖) := by
    calc _ = (0.27 * (1 + ‖x‖) ^ 3) * (0.26 * (1 + ‖x‖) ^ 3) * d := by ring
      _ ≤ ‖x‖ * (2.7e-12 * (1 + ‖x‖) ^ 5 * ‖U‖) := k5.trans (e'.trans_le (mul_le_mul_of_nonneg_left k4 r0))
      _ ≤ (1 + ‖x‖) * (2.7e-12 * (1 + ‖x‖) ^ 5 * ‖U‖) := by gcongr; linarith
      _ = _ := by ring
  have k7 := le_of_mul_le_mul_left k6 (by positivity)
  nlinarith [norm_nonneg U]

/-- For real arguments the factor is in `[-1e-12, 1]`. -/
theorem Eqs.decay (C : Consts γ α β τ s1 s2 s3) {y : ℝ} (H : Eqs γ α β s1 s2 s3 ((-y : ℝ) : ℂ) U e1 e2 e3 W1 W2 W3)
    (hy : 0 ≤ y) (h1 : ‖e1‖ ≤ 1e-16 * ‖U‖) (h2 : ‖e2‖ ≤ 1e-16 * ‖U‖) (h3 : ‖e3‖ ≤ 1e-16 * ‖U‖) :
    ∃ q δ : ℝ, ‖U + (τ * W1 + W2) - q * U‖ ≤ δ * ‖U‖ ∧ q + δ ≤ 1 ∧ -1e-12 ≤ q - δ := by
  have hx : (((-y : ℝ) : ℂ)).re ≤ 0 := by simpa using hy
  have hn : ‖((-y : ℝ) : ℂ)‖ = y := by rw [Complex.norm_real, Real.norm_eq_abs, abs_neg, abs_of_nonneg hy]
  have hi : denC γ α β ((-y : ℝ) : ℂ) * (τ * W1 + W2) =
    ((-y : ℝ) : ℂ) * (numC γ α β τ s1 s2 s3 ((-y : ℝ) : ℂ) * U + eta γ α β τ ((-y : ℝ) : ℂ) e1 e2 e3) := H.incr
  have k1 := denC_lower C hx
  have k3 := eta_le (x := ((-y : ℝ) : ℂ)) C h1 h2 h3
  have d1 := num_diff (x := ((-y : ℝ) : ℂ)) C
  have d2 := den_diff (x := ((-y : ℝ) : ℂ)) C
  set η := eta γ α β τ ((-y : ℝ) : ℂ) e1 e2 e3
  set M : ℝ := (γ + y) * ((α + y) ^ 2 + β ^ 2) with hM
  set N : ℝ := τ * s1 * ((α + y) ^ 2 + β ^ 2) + ((α + y) * s2 + β * s3) * (γ + y) with hN
  have eM : denC γ α β ((-y : ℝ) : ℂ) = (M : ℂ) := by simp only [denC, hM]; push_cast; ring
  have eN : numC γ α β τ s1 s2 s3 ((-y : ℝ) : ℂ) = (N : ℂ) := by simp only [numC, hN]; push_cast; ring
  have M0 : 0 < M := by
    have := C.γ1
    have := C.β1
    rw [hM]; positivity
  rw [eM, hn, Complex.norm_real, Real.norm_eq_abs, abs_of_pos M0] at k1
  rw [hn] at k3 d1 d2
  rw [eN] at d1 hi
  rw [eM] at d2 hi
  have d1' : |N - (60 + 6 * y + y ^ 2)| ≤ 2e-14 * (1 + y) ^ 2 := by
    rw [← Real.norm_eq_abs, ← Complex.norm_real]
    refine le_trans (le_of_eq ?_) d1
    congr 1
    simp only [num]; push_cast; ring
  have d2' : |M - (60 + 36 * y + 9 * y ^ 2 + y ^ 3)| ≤ 2e-14 * (1 + y) ^ 2 := by
    rw [← Real.norm_eq_abs, ← Complex.norm_real]
    refine le_trans (le_of_eq ?_) d2
    congr 1
    simp only [den]; push_cast; ring
  obtain ⟨n1, n2⟩ := abs_le.1 d1'
  obtain ⟨m1, m2⟩ := abs_le.1 d2'
  refine ⟨1 - y * N / M, y * (4e-15 * (1 + y) ^ 2) / M, ?_, ?_, ?_⟩
  · have hMc : (M : ℂ) ≠ 0 := by exact_mod_cast M0.ne'
    have e : U + (τ * W1 + W2) - ((1 - y * N / M : ℝ) : ℂ) * U = -(y * η) / M := by
      have : (τ * W1 + W2) = ((-y : ℝ) : ℂ) * (N * U + η) / M := by rw [eq_div_iff hMc, ← hi]; ring
      rw [this]
      push_cast
      field_simp
      ring
    rw [e, norm_div, norm_neg, norm_mul, Complex.norm_real, Complex.norm_real, Real.norm_eq_abs, Real.norm_eq_abs,
      abs_of_nonneg hy, abs_of_pos M0, div_mul_eq_mul_div]
    refine div_le_div_of_nonneg_right ?_ M0.le
    rw [mul_assoc]
    refine mul_le_mul_of_nonneg_left (k3.trans (le_of_eq ?_)) hy
    ring
  · have : y * (4e-15 * (1 + y) ^ 2) / M ≤ y * N / M := by
      refine div_le_div_of_nonneg_right (mul_le_mul_of_nonneg_left ?_ hy) M0.le
      nlinarith
    linarith
  · have h4 : 0 ≤ y * (1 + y) ^ 2 := by positivity
    have h5 : (1 + y) ^ 2 ≤ (1 + y) ^ 3 := pow_le_pow_right₀ (by linarith) (by norm_num)
    have h6 : y * (1 + y) ^ 2 ≤ (1 + y) ^ 3 := by
      rw [pow_succ (1 + y) 2, mul_comm]; exact mul_le_mul_of_nonneg_left (by linarith) (by positivity)
    have h7 : y * N ≤ y * (60 + 6 * y + y ^ 2) + 2e-14 * (y * (1 + y) ^ 2) := by
      have := mul_le_mul_of_nonneg_left n2 hy
      linarith
    have h8 : y * N + y * (4e-15 * (1 + y) ^ 2) ≤ (1 + 1e-12) * M := by
      nlinarith [sq_nonneg (y - 4)]
    have h9 : (y * N + y * (4e-15 * (1 + y) ^ 2)) / M ≤ 1 + 1e-12 := (div_le_iff₀ M0).2 h8
    rw [add_div] at h9
    linarith

/-! ### Approximation of the exponential function -/

theorem radauR_exp {x : ℂ} (hx : x.re ≤ 0) (h1 : ‖x‖ ≤ 1) : ‖Spec.radauR x - Complex.exp x‖ ≤ ‖x‖ ^ 6 / 100 := by
  have r0 := norm_nonneg x
  have hd := den_ne hx
  have h60 := den_ge hx
  have hE := Complex.exp_bound h1 (n := 6) (by norm_num)
  set S := ∑ m ∈ Finset.range 6, x ^ m / (m.factorial : ℂ) with hS
  have eS : S = 1 + x + x ^ 2 / 2 + x ^ 3 / 6 + x ^ 4 / 24 + x ^ 5 / 120 := by
    rw [hS]
    simp [Finset.sum_range_succ, Nat.factorial]
  have e : den x * (Spec.radauR x - Complex.exp x) =
      x ^ 6 * (11 / 120 - x / 30 + x ^ 2 / 120) - den x * (Complex.exp x - S) := by
    rw [mul_sub, radauR_eq, mul_div_cancel₀ _ hd]
    rw [eS]
    simp only [den]
    ring
  have e' := congrArg norm e
  rw [norm_mul] at e'
  have k1 : ‖den x‖ ≤ 106 := by
    have : ‖den x‖ ≤ ‖(60 : ℂ)‖ + ‖36 * x‖ + ‖9 * x ^ 2‖ + ‖x ^ 3‖ := by
      rw [den]
      exact (norm_sub_le _ _).trans (add_le_add_left ((norm_add_le _ _).trans (add_le_add_left (norm_sub_le _ _) _)) _)
    simp only [norm_mul, norm_pow, Complex.norm_ofNat] at this
    have := pow_le_one₀ r0 h1 (n := 2)
    have := pow_le_one₀ r0 h1 (n := 3)
    linarith
  have k2 : ‖(11 / 120 : ℂ) - x / 30 + x ^ 2 / 120‖ ≤ 16 / 120 := by
    have : ‖(11 / 120 : ℂ) - x / 30 + x ^ 2 / 120‖ ≤ ‖(11 / 120 : ℂ)‖ + ‖x / 30‖ + ‖x ^ 2 / 120‖ :=
      (norm_add_le _ _).trans (add_le_add_left (norm_sub_le _ _) _)
    simp only [norm_div, norm_pow, Complex.norm_ofNat] at this
    have := pow_le_one₀ r0 h1 (n := 2)
    linarith
  have k3 : ‖den x * (Spec.radauR x - Complex.exp x)‖ ≤ ‖x‖ ^ 6 * (16 / 120) + 106 * (‖x‖ ^ 6 * (7 / 4320)) := by
    rw [e]
    refine (norm_sub_le _ _).trans ?_
    rw [norm_mul, norm_mul, norm_pow]
    have : ‖Complex.exp x - S‖ ≤ ‖x‖ ^ 6 * (7 / 4320) := by
      refine hE.trans (le_of_eq ?_)
      norm_num [Nat.factorial]
    gcongr
  rw [norm_mul] at k3
  have : 60 * ‖Spec.radauR x - Complex.exp x‖ ≤ ‖den x‖ * ‖Spec.radauR x - Complex.exp x‖ :=
    mul_le_mul_of_nonneg_right h60 (norm_nonneg _)
  nlinarith [pow_nonneg r0 6]

end RadauR
end
end Cyphus
