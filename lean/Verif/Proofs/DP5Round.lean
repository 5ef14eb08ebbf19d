import Verif.Proofs.Round64
import Verif.Proofs.Converge
import Verif.Props.DP5Float
/-!
# Rounding errors of a Dormand-Prince step in double precision
-/

namespace Cyphus
open X B64 Set
set_option linter.unusedSectionVars false
set_option autoImplicit false
noncomputable section

/-! ## The constants -/

theorem B64.coef_ratio (m m' k k' : ℕ) (c : ℝ) (h : (OfScientific.ofScientific m true 1 : ℝ) = k := by norm_num)
    (h' : (OfScientific.ofScientific m' true 1 : ℝ) = k' := by norm_num) (hc : (k : ℝ) / k' = c := by norm_num)
    (h1 : 2 ^ (-10 : ℤ) ≤ |c| := by norm_num [abs_of_pos]) (h2 : |c| ≤ 32 := by norm_num [abs_of_pos])
    (h3 : (k' : ℝ) ≠ 0 := by norm_num) (hk : k ≤ 2 ^ 53 := by norm_num) (hk' : k' ≤ 2 ^ 53 := by norm_num) :
    Coef ((OfScientific.ofScientific m true 1 : B64) / OfScientific.ofScientific m' true 1) c :=
  coef_div (lit_fin m 1 k h hk) (lit_fin m' 1 k' h' hk') hc h1 h2 h3

theorem B64.coef_ratio_neg (m m' k k' : ℕ) (c : ℝ) (h : (OfScientific.ofScientific m true 1 : ℝ) = k := by norm_num)
    (h' : (OfScientific.ofScientific m' true 1 : ℝ) = k' := by norm_num) (hc : -(k : ℝ) / k' = c := by norm_num)
    (h1 : 2 ^ (-10 : ℤ) ≤ |c| := by norm_num [abs_of_neg]) (h2 : |c| ≤ 32 := by norm_num [abs_of_neg])
    (h3 : (k' : ℝ) ≠ 0 := by norm_num) (hk : k ≤ 2 ^ 53 := by norm_num) (hk' : k' ≤ 2 ^ 53 := by norm_num) :
    Coef (-(OfScientific.ofScientific m true 1 : B64) / OfScientific.ofScientific m' true 1) c := by
  refine coef_div (u := -k) ?_ (lit_fin m' 1 k' h' hk') hc h1 h2 h3
  rw [laws.neg, lit_fin m 1 k h hk, neg_fin]

/-! ## Linear combinations of the stages -/

/-- What the error analysis needs to know about the stages: exact values are bounded by `M`, the computed ones differ from them by
at most `D`. -/
structure Sizes (M D : ℝ) : Prop where
  M0 : 0 ≤ M
  D0 : 0 ≤ D
  D1 : D ≤ 1
  big : M + 1 ≤ 2 ^ (950 : ℤ)

/-- `a` is the computed value of `A`, a combination of stages with coefficients of total size `C`, after `m` roundings. -/
def Acc (M D : ℝ) (a : B64) (A C m : ℝ) : Prop :=
  2 ^ (-10 : ℤ) ≤ C ∧ C ≤ 32 ∧ 3 ≤ m ∧ m ≤ 20 ∧ |A| ≤ C * M ∧ ∃ r, a.x = fin r ∧ |r - A| ≤ C * (D + m * (unit64 * (M + 1)))

variable {M D : ℝ}

theorem Sizes.le_big (S : Sizes M D) {x : ℝ} (h : x ≤ 2 ^ (10 : ℤ) * (M + 1)) : x ≤ big64 := by
  refine h.trans ((mul_le_mul_of_nonneg_left S.big (two_pow_pos _).le).trans ?_)
  rw [two_pow_mul]; exact le_big64 (by norm_num)

theorem Acc.abs_le (S : Sizes M D) {a : B64} {A C m r : ℝ} (h : Acc M D a A C m) (hr : |r - A| ≤ C * (D + m * (unit64 * (M + 1)))) :
    |r| ≤ C * (1.1 * (M + 1)) := by
  obtain ⟨h1, h2, h3, h4, h5, -⟩ := h
  have hC : 0 ≤ C := (two_pow_pos _).le.trans h1
  have hu := unit64_le
  have hu0 := unit64_pos
  have hM := S.M0
  have k1 : m * (unit64 * (M + 1)) ≤ 0.1 * (M + 1) := by
    rw [← mul_assoc]
    refine mul_le_mul_of_nonneg_right ?_ (by linarith)
    nlinarith
  have k2 := mul_le_mul_of_nonneg_left (show D + m * (unit64 * (M + 1)) ≤ 1 + 0.1 * (M + 1) by linarith [S.D1]) hC
  have k3 := abs_sub_abs_le_abs_sub r A
  have k4 : C * (1.1 * (M + 1)) = C * M + C * (1 + 0.1 * (M + 1)) := by ring
  linarith

theorem Acc.term (S : Sizes M D) {a b : B64} {c k κ : ℝ} (ha : Coef a c) (h1 : 2 ^ (-10 : ℤ) ≤ |c|) (h2 : |c| ≤ 32)
    (hb : b.x = fin κ) (hk : |k| ≤ M) (he : |κ - k| ≤ D) : Acc M D (a * b) (c * k) |c| 3 := by
  obtain ⟨r, er, hr⟩ := ha
  have hu := unit64_le
  have hu0 := unit64_pos
  have hM := S.M0
  have hκ : |κ| ≤ M + 1 := by
    have := abs_sub_abs_le_abs_sub κ k
    linarith [S.D1]
  have hr' : |r| ≤ |c| * (1 + unit64) := by
    have := abs_sub_abs_le_abs_sub r c
    linarith
  have hrκ : |r * κ| ≤ |c| * (1 + unit64) * (M + 1) := by
    rw [abs_mul]
    exact mul_le_mul hr' hκ (abs_nonneg _) (by positivity)
  have hrκ' : |c| * (1 + unit64) * (M + 1) ≤ 32 * 2 * (M + 1) :=
    mul_le_mul_of_nonneg_right (mul_le_mul h2 (by linarith) (by positivity) (by norm_num)) (by positivity)
  obtain ⟨z, ez, hz⟩ := B64.mul_near er hb (S.le_big (by
    have : (2 : ℝ) ^ (10 : ℤ) = 1024 := by norm_num
    rw [this]; linarith))
  refine ⟨h1, h2, le_rfl, by norm_num, by rw [abs_mul]; exact mul_le_mul_of_nonneg_left hk (abs_nonneg _), z, ez, ?_⟩
  have e1 : z - c * k = (z - r * κ) + (r - c) * κ + c * (κ - k) := by ring
  have e2 : |(r - c) * κ| ≤ unit64 * |c| * (M + 1) := by
    rw [abs_mul]; exact mul_le_mul hr hκ (abs_nonneg _) (by positivity)
  have e3 : |c * (κ - k)| ≤ |c| * D := by
    rw [abs_mul]; exact mul_le_mul_of_nonneg_left he (abs_nonneg _)
  have e4 : unit64 * |r * κ| ≤ unit64 * |c| * (M + 1) + 0.1 * (unit64 * |c| * (M + 1)) := by
    have := mul_le_mul_of_nonneg_left hrκ hu0.le
    have h5 : 0 ≤ unit64 * |c| * (M + 1) := by positivity
    have h6 : unit64 * (unit64 * |c| * (M + 1)) ≤ 0.1 * (unit64 * |c| * (M + 1)) :=
      mul_le_mul_of_nonneg_right (by linarith) h5
    have h7 : unit64 * (|c| * (1 + unit64) * (M + 1)) = unit64 * |c| * (M + 1) + unit64 * (unit64 * |c| * (M + 1)) := by ring
    linarith
  have e5 : tiny64 ≤ 0.1 * (unit64 * |c| * (M + 1)) := by
    have h6 : unit64 * 2 ^ (-10 : ℤ) * 1 ≤ unit64 * |c| * (M + 1) :=
      mul_le_mul (mul_le_mul_of_nonneg_left h1 hu0.le) (by linarith) zero_le_one (by positivity)
    have h7 : tiny64 ≤ 2 ^ (-100 : ℤ) := tiny64_le (by norm_num)
    have h8 : (2 : ℝ) ^ (-100 : ℤ) ≤ 0.1 * (unit64 * 2 ^ (-10 : ℤ) * 1) := by unfold unit64 Spec.roundoff; norm_num
    exact h7.trans (h8.trans (mul_le_mul_of_nonneg_left h6 (by norm_num)))
  rw [e1]
  have := abs_add_three (z - r * κ) ((r - c) * κ) (c * (κ - k))
  have h5 : 0 ≤ unit64 * |c| * (M + 1) := by positivity
  have e6 : |c| * (D + 3 * (unit64 * (M + 1))) = |c| * D + 3 * (unit64 * |c| * (M + 1)) := by ring
  linarith

theorem Acc.add (S : Sizes M D) {a b : B64} {A B C C' m m' : ℝ} (ha : Acc M D a A C m) (hb : Acc M D b B C' m') (hm : m' ≤ m)
    (hm' : m + 2 ≤ 20) (hC : C + C' ≤ 32) : Acc M D (a + b) (A + B) (C + C') (m + 2) := by
  have ha' := ha
  have hb' := hb
  obtain ⟨a1, a2, a3, a4, a5, r, er, hr⟩ := ha
  obtain ⟨b1, b2, b3, b4, b5, q, eq, hq⟩ := hb
  have hu0 := unit64_pos
  have hM := S.M0
  have hC0 : 0 ≤ C := (two_pow_pos _).le.trans a1
  have hC0' : 0 ≤ C' := (two_pow_pos _).le.trans b1
  have hrq : |r + q| ≤ (C + C') * (1.1 * (M + 1)) := by
    have h1 := ha'.abs_le S hr
    have h2 := hb'.abs_le S hq
    have := abs_add_le r q
    linarith
  have hrq' : (C + C') * (1.1 * (M + 1)) ≤ 32 * (1.1 * (M + 1)) := mul_le_mul_of_nonneg_right hC (by positivity)
  obtain ⟨z, ez, hz⟩ := B64.add_near er eq (S.le_big (by
    have : (2 : ℝ) ^ (10 : ℤ) = 1024 := by norm_num
    rw [this]; linarith))
  refine ⟨by linarith, hC, by linarith, hm', ?_, z, ez, ?_⟩
  · have := abs_add_le A B
    linarith
  · have e1 : z - (A + B) = (z - (r + q)) + (r - A) + (q - B) := by ring
    have e2 := abs_add_three (z - (r + q)) (r - A) (q - B)
    have e3 : C' * (D + m' * (unit64 * (M + 1))) ≤ C' * (D + m * (unit64 * (M + 1))) :=
      mul_le_mul_of_nonneg_left (by
        have := mul_le_mul_of_nonneg_right hm (show 0 ≤ unit64 * (M + 1) by positivity)
        linarith) hC0'
    have e4 : unit64 * |r + q| ≤ (C + C') * (1.1 * (unit64 * (M + 1))) :=
      (mul_le_mul_of_nonneg_left hrq hu0.le).trans_eq (by ring)
    have e5 : (C + C') * (D + (m + 2) * (unit64 * (M + 1))) = C * (D + m * (unit64 * (M + 1))) +
      C' * (D + m * (unit64 * (M + 1))) + (C + C') * (2 * (unit64 * (M + 1))) := by ring
    have e6 : 0 ≤ (C + C') * (unit64 * (M + 1)) := by positivity
    rw [e1, e5]
    linarith

/-! ## Increments and arguments of the stages -/

/-- The step size: `k` is the value of `dt`, `h'` the difference of the recorded times. -/
structure Width (M h θ k h' : ℝ) : Prop where
  h0 : 0 ≤ h
  hM : 25 * (M + 1) * h ≤ 1
  h'0 : 0 ≤ h'
  h'h : h' ≤ h
  k0 : 0 ≤ k
  kh : k ≤ 2 * h
  near : |k - h'| ≤ θ

theorem Acc.inc (S : Sizes M D) {h θ k h' : ℝ} (W : Width M h θ k h') {a d : B64} {A C m : ℝ} (ha : Acc M D a A C m)
    (hd : d.x = fin k) (hm : m ≤ 11) (hC : C ≤ 25) {w : ℝ} (hw : k ≤ w) :
    ∃ q, (d * a).x = fin q ∧ |q - h' * A| ≤ C * (w * D + θ * M) + 27 * unit64 ∧ |h' * A| ≤ 1 := by
  have ha' := ha
  obtain ⟨a1, a2, a3, a4, a5, r, er, hr⟩ := ha
  have hu0 := unit64_pos
  have hM := S.M0
  have hC0 : 0 ≤ C := (two_pow_pos _).le.trans a1
  have hA := ha'.abs_le S hr
  have k0 := W.k0
  have hh := W.h0
  have hD := S.D0
  have hkr : |k * r| ≤ 2 * h * (C * (1.1 * (M + 1))) := by
    rw [abs_mul, abs_of_nonneg k0]
    exact mul_le_mul W.kh hA (abs_nonneg _) (by positivity)
  have hCh : h * (C * (M + 1)) ≤ 1 := by
    have h1 : C * (h * (M + 1)) ≤ 25 * (h * (M + 1)) := mul_le_mul_of_nonneg_right hC (by positivity)
    have h2 := W.hM
    nlinarith
  have hkr' : |k * r| ≤ 2.2 := by
    have : 2 * h * (C * (1.1 * (M + 1))) = 2.2 * (h * (C * (M + 1))) := by ring
    linarith
  obtain ⟨q, eq, hq⟩ := B64.mul_near hd er (hkr'.trans (by
    have : (2 : ℝ) ^ (10 : ℤ) ≤ big64 := le_big64 (by norm_num)
    norm_num at this ⊢; linarith))
  refine ⟨q, eq, ?_, ?_⟩
  · have e1 : q - h' * A = (q - k * r) + k * (r - A) + (k - h') * A := by ring
    have e2 := abs_add_three (q - k * r) (k * (r - A)) ((k - h') * A)
    have e3 : |k * (r - A)| ≤ k * (C * (D + m * (unit64 * (M + 1)))) := by
      rw [abs_mul, abs_of_nonneg k0]
      exact mul_le_mul_of_nonneg_left hr k0
    have e4 : |(k - h') * A| ≤ θ * (C * M) := by
      rw [abs_mul]; exact mul_le_mul W.near a5 (abs_nonneg _) ((abs_nonneg _).trans W.near)
    have e5 : k * (C * (D + m * (unit64 * (M + 1)))) ≤ C * (w * D) + 22 * unit64 := by
      have : k * (C * (D + m * (unit64 * (M + 1)))) = C * (k * D) + k * (C * (m * (unit64 * (M + 1)))) := by ring
      rw [this]
      have h3 : C * (k * D) ≤ C * (w * D) := mul_le_mul_of_nonneg_left (mul_le_mul_of_nonneg_right hw hD) hC0
      have h4 : k * (C * (m * (unit64 * (M + 1)))) ≤ 2 * h * (C * (m * (unit64 * (M + 1)))) :=
        mul_le_mul_of_nonneg_right W.kh (by positivity)
      have h5 : 2 * h * (C * (m * (unit64 * (M + 1)))) = 2 * m * unit64 * (h * (C * (M + 1))) := by ring
      have h1 : 2 * m * unit64 * (h * (C * (M + 1))) ≤ 2 * m * unit64 * 1 := mul_le_mul_of_nonneg_left hCh (by positivity)
      have h2 := mul_le_mul_of_nonneg_right hm hu0.le
      linarith
    have e6 : unit64 * |k * r| ≤ 2.2 * unit64 := by
      have := mul_le_mul_of_nonneg_left hkr' hu0.le
      linarith
    have e7 : tiny64 ≤ unit64 := two_pow_le (by norm_num)
    rw [e1]
    have e8 : C * (w * D + θ * M) = C * (w * D) + θ * (C * M) := by ring
    linarith
  · rw [abs_mul, abs_of_nonneg W.h'0]
    refine (mul_le_mul W.h'h a5 (abs_nonneg _) hh).trans (le_trans ?_ hCh)
    exact mul_le_mul_of_nonneg_left (mul_le_mul_of_nonneg_left (by linarith) hC0) hh

/-- The increment of the second stage, which is computed in another order. -/
theorem inc_two (S : Sizes M D) {h θ k h' : ℝ} (W : Width M h θ k h') {b d : B64} {κ x : ℝ}
    (hd : d.x = fin k) (hb : b.x = fin κ) (hk : |x| ≤ M) (he : |κ - x| ≤ D) (hθ : θ ≤ h) :
    ∃ q, (d * 0.2 * b).x = fin q ∧ |q - h' * (1 / 5 * x)| ≤ 25 * (2 * h * D + θ * M) + 27 * unit64 ∧ |h' * (1 / 5 * x)| ≤ 1 := by
  obtain ⟨c, ec, hc⟩ : Coef (0.2 : B64) (1 / 5) := coef_lit 2 true 1 (by norm_num) (by norm_num [abs_of_pos]) (by norm_num [abs_of_pos])
  rw [abs_of_pos (by norm_num : (0 : ℝ) < 1 / 5)] at hc
  have hu0 := unit64_pos
  have hu := unit64_le
  have hM := S.M0
  have k0 := W.k0
  have hh := W.h0
  have hD := S.D0
  have hW := W.hM
  have hk1 := W.kh
  have hn := W.near
  have hθ0 : 0 ≤ θ := (abs_nonneg _).trans hn
  have hκ : |κ| ≤ M + 1 := by
    have := abs_sub_abs_le_abs_sub κ x
    linarith [S.D1]
  have hMh : (M + 1) * h ≤ 1 / 25 := by linarith
  have hh1 : h ≤ 1 / 25 := by nlinarith
  have hc' : |c| ≤ 1 := by
    have h1 := abs_sub_abs_le_abs_sub c (1 / 5)
    rw [abs_of_pos (by norm_num : (0 : ℝ) < 1 / 5)] at h1
    linarith
  have b1 : |k * c| ≤ 2 * h := by
    rw [abs_mul, abs_of_nonneg k0]
    calc k * |c| ≤ k * 1 := mul_le_mul_of_nonneg_left hc' k0
      _ ≤ 2 * h := by linarith
  have hbig : ∀ z : ℝ, z ≤ 10 → z ≤ big64 := by
    intro z hz
    have : (2 : ℝ) ^ (10 : ℤ) ≤ big64 := le_big64 (by norm_num)
    norm_num at this; linarith
  obtain ⟨p, ep, hp⟩ := B64.mul_near hd ec (hbig _ (by linarith))
  have ht1 : tiny64 * (M + 1) ≤ unit64 := by
    have := mul_le_mul_of_nonneg_left S.big tiny64_pos.le
    refine this.trans ?_
    rw [tiny64, unit64, Spec.roundoff, two_pow_mul]; exact two_pow_le (by norm_num)
  have ht2 : tiny64 ≤ unit64 := two_pow_le (by norm_num)
  have d1 : |p - h' * (1 / 5)| ≤ 4 * unit64 * h + tiny64 + θ / 5 := by
    have e1 : p - h' * (1 / 5) = (p - k * c) + k * (c - 1 / 5) + (k - h') * (1 / 5) := by ring
    have e2 := abs_add_three (p - k * c) (k * (c - 1 / 5)) ((k - h') * (1 / 5))
    have e3 : |k * (c - 1 / 5)| ≤ 2 * h * (unit64 * (1 / 5)) := by
      rw [abs_mul, abs_of_nonneg k0]; exact mul_le_mul hk1 hc (abs_nonneg _) (by positivity)
    have e4 : |(k - h') * (1 / 5)| ≤ θ * (1 / 5) := by
      rw [abs_mul, abs_of_pos (by norm_num : (0 : ℝ) < 1 / 5)]; exact mul_le_mul_of_nonneg_right hn (by norm_num)
    have e5 := mul_le_mul_of_nonneg_left b1 hu0.le
    have : 0 ≤ unit64 * h := by positivity
    rw [e1]; linarith
  have hp' : |p| ≤ 2 * h + tiny64 := by
    have h1 := abs_sub_abs_le_abs_sub p (h' * (1 / 5))
    have h2 : |h' * (1 / 5)| ≤ h * (1 / 5) := by
      rw [abs_mul, abs_of_nonneg W.h'0, abs_of_pos (by norm_num : (0 : ℝ) < 1 / 5)]
      exact mul_le_mul_of_nonneg_right W.h'h (by norm_num)
    have : unit64 * h ≤ 1e-15 * h := mul_le_mul_of_nonneg_right hu hh
    linarith
  have b2 : |p * κ| ≤ 1 := by
    rw [abs_mul]
    have := mul_le_mul hp' hκ (abs_nonneg _) (by have := tiny64_pos; positivity)
    have h3 : (2 * h + tiny64) * (M + 1) = 2 * ((M + 1) * h) + tiny64 * (M + 1) := by ring
    linarith
  obtain ⟨q, eq, hq⟩ := B64.mul_near ep hb (hbig _ (by linarith))
  refine ⟨q, eq, ?_, ?_⟩
  · have e1 : q - h' * (1 / 5 * x) = (q - p * κ) + (p - h' * (1 / 5)) * κ + h' * (1 / 5) * (κ - x) := by ring
    have e2 := abs_add_three (q - p * κ) ((p - h' * (1 / 5)) * κ) (h' * (1 / 5) * (κ - x))
    have e3 : |(p - h' * (1 / 5)) * κ| ≤ (4 * unit64 * h + tiny64 + θ / 5) * |κ| := by
      rw [abs_mul]; exact mul_le_mul_of_nonneg_right d1 (abs_nonneg _)
    have e4 : |h' * (1 / 5) * (κ - x)| ≤ h * (1 / 5) * D := by
      rw [abs_mul, abs_mul, abs_of_nonneg W.h'0, abs_of_pos (by norm_num : (0 : ℝ) < 1 / 5)]
      exact mul_le_mul (mul_le_mul_of_nonneg_right W.h'h (by norm_num)) he (abs_nonneg _) (by positivity)
    have hκ' : |κ| ≤ M + D := by
      have := abs_sub_abs_le_abs_sub κ x
      linarith
    have e5 : (4 * unit64 * h + tiny64 + θ / 5) * |κ| ≤ 2 * unit64 + (θ / 5) * (M + D) := by
      have i1 : (4 * unit64 * h + tiny64) * |κ| ≤ (4 * unit64 * h + tiny64) * (M + 1) :=
        mul_le_mul_of_nonneg_left hκ (by have := tiny64_pos; positivity)
      have i2 : (θ / 5) * |κ| ≤ (θ / 5) * (M + D) := mul_le_mul_of_nonneg_left hκ' (by positivity)
      have i3 : (4 * unit64 * h + tiny64) * (M + 1) = 4 * unit64 * ((M + 1) * h) + tiny64 * (M + 1) := by ring
      have i4 : 4 * unit64 * ((M + 1) * h) ≤ 4 * unit64 * (1 / 25) := mul_le_mul_of_nonneg_left hMh (by positivity)
      linarith
    have e6 : unit64 * |p * κ| ≤ unit64 * 1 := mul_le_mul_of_nonneg_left b2 hu0.le
    have e7 : θ * D ≤ h * D := mul_le_mul_of_nonneg_right hθ hD
    have e8 : 0 ≤ h * D := by positivity
    have e9 : 0 ≤ θ * M := by positivity
    rw [e1]
    linarith
  · rw [abs_mul, abs_of_nonneg W.h'0, abs_mul, abs_of_pos (by norm_num : (0 : ℝ) < 1 / 5)]
    have := mul_le_mul W.h'h hk (abs_nonneg _) hh
    nlinarith

/-- The argument of a stage. -/
theorem arg_near {R : ℝ} (hR0 : 0 ≤ R) (hR : R ≤ 2 ^ (60 : ℤ)) {u q : B64} {υ x z σ : ℝ} (hu : u.x = fin υ) (hq : q.x = fin x)
    (h1 : |υ| ≤ R + 1 / 2) (h2 : |z| ≤ 1) (h3 : |x - z| ≤ σ) (h4 : σ ≤ 1 / 2) :
    ∃ w, (u + q).x = fin w ∧ |w - (υ + z)| ≤ σ + unit64 * (R + 2) := by
  have h5 : |υ + x| ≤ R + 2 := by
    have e1 : υ + x = υ + z + (x - z) := by ring
    have := abs_add_three υ z (x - z)
    rw [e1]; linarith
  obtain ⟨w, ew, hw⟩ := B64.add_near hu hq (h5.trans (by
    have h6 : (2 : ℝ) ^ (60 : ℤ) * 2 ^ (60 : ℤ) ≤ big64 := by rw [two_pow_mul]; exact le_big64 (by norm_num)
    norm_num at h6 hR
    linarith))
  refine ⟨w, ew, ?_⟩
  have e1 : w - (υ + z) = (w - (υ + x)) + (x - z) := by ring
  have e2 := abs_add_le (w - (υ + x)) (x - z)
  have e3 := mul_le_mul_of_nonneg_left h5 unit64_pos.le
  rw [e1]; linarith

/-! ## The stages -/

variable {n : ℕ}

/-- The values of a vector of doubles. -/
def VNear (v : Vec n B64) (w : Fin n → ℝ) (e : ℝ) : Prop :=
  ∃ r : Fin n → ℝ, (∀ i, (v i).x = fin (r i)) ∧ ∀ i, |r i - w i| ≤ e

theorem VNear.of {v : Vec n B64} {w : Fin n → ℝ} {e : ℝ} (h : ∀ i, ∃ r, (v i).x = fin r ∧ |r - w i| ≤ e) : VNear v w e := by
  choose r h1 h2 using h
  exact ⟨r, h1, h2⟩

section stage
variable {g : Vec n B64 → B64 → Vec n B64} {f : ℝ → (Fin n → ℝ) → Fin n → ℝ} {t0 tf R L N δ σ θ : ℝ}

theorem stage_near (hb : Conv.Bounds f t0 tf (R + 2) M L) (hN : Spec.TimeLip f t0 tf R N) (hg : Spec.Evaluates g f t0 tf R δ)
    (hN0 : 0 ≤ N) {v : Vec n B64} {w : Fin n → ℝ} (hv : VNear v w σ) (hw : ‖w‖ ≤ R + 3 / 2) (hσ : σ ≤ 1 / 2) (hσ0 : 0 ≤ σ)
    (hR : 0 ≤ R) {t : B64} {τ x : ℝ} (ht : t.x = fin τ) (h1 : τ ∈ Icc t0 tf) (h2 : x ∈ Icc t0 tf) (h3 : |τ - x| ≤ 10 * θ) :
    VNear (g v t) (f x w) (δ + L * σ + 10 * N * θ) := by
  obtain ⟨r, h4, h5⟩ := hv
  have hw' : ∀ i, |w i| ≤ R + 3 / 2 := fun i => (norm_le_pi_norm w i).trans hw
  have hr : ∀ i, |r i| ≤ R + 2 := by
    intro i
    have := abs_sub_abs_le_abs_sub (r i) (w i)
    linarith [hw' i, h5 i]
  have hrn : ‖r‖ ≤ R + 2 := (pi_norm_le_iff_of_nonneg (by linarith)).2 hr
  have hd : ‖r - w‖ ≤ σ := (pi_norm_le_iff_of_nonneg hσ0).2 h5
  refine VNear.of fun i => ?_
  obtain ⟨z, ez, hz⟩ := hg v t r τ h4 ht h1 hr i
  refine ⟨z, ez, ?_⟩
  have e1 : |f τ r i - f τ w i| ≤ L * σ :=
    (norm_le_pi_norm (f τ r - f τ w) i).trans ((hb.lip τ h1 r w hrn (by linarith)).trans (mul_le_mul_of_nonneg_left hd hb.L0))
  have e2 : |f τ w i - f x w i| ≤ 10 * N * θ := by
    refine (hN τ h1 x h2 w (fun i => (hw' i).trans (by linarith)) i).trans ?_
    have := mul_le_mul_of_nonneg_left h3 hN0
    linarith
  have e3 : z - f x w i = (z - f τ r i) + (f τ r i - f τ w i) + (f τ w i - f x w i) := by ring
  have e4 := abs_add_three (z - f τ r i) (f τ r i - f τ w i) (f τ w i - f x w i)
  rw [e3]; linarith

end stage

/-! ## One step -/

/-- The quantities in the bounds: `E` for the rounding errors in the states, `D` for the errors in the stages. -/
structure Budget (f : ℝ → (Fin n → ℝ) → Fin n → ℝ) (g : Vec n B64 → B64 → Vec n B64) (t0 tf R M L N δ E D h : ℝ) : Prop where
  bounds : Conv.Bounds f t0 tf (R + 2) M L
  lip : Spec.TimeLip f t0 tf R N
  eval : Spec.Evaluates g f t0 tf R δ
  R0 : 0 ≤ R
  N0 : 0 ≤ N
  δ0 : 0 ≤ δ
  t00 : 0 ≤ t0
  tf1 : 2 ^ (-900 : ℤ) ≤ tf
  E_eq : E = unit64 * (25 * (M + 1) * tf + R + 30)
  D_eq : D = 2 * δ + 2 * L * E + 20 * unit64 * N * tf
  E1 : E ≤ 1 / 4
  D1 : D ≤ 1 / 8
  hh : unit64 * tf ≤ h
  hM : 25 * (M + 1) * h ≤ 1
  hL : 100 * L * h ≤ 1

section step
variable {g : Vec n B64 → B64 → Vec n B64} {f : ℝ → (Fin n → ℝ) → Fin n → ℝ} {t0 tf R L N δ E h : ℝ}

namespace Budget
variable (B : Budget f g t0 tf R M L N δ E D h)
include B

theorem tf0 : 0 < tf := (two_pow_pos _).trans_le B.tf1
theorem h0 : 0 < h := (mul_pos unit64_pos B.tf0).trans_le B.hh
theorem E0 : 0 ≤ E := by
  rw [B.E_eq]
  have := unit64_pos
  have := B.bounds.M0
  have := B.R0
  have := B.tf0
  positivity
theorem sizes : Sizes M D where
  M0 := B.bounds.M0
  D0 := by
    rw [B.D_eq]
    have := unit64_pos
    have := B.bounds.L0
    have := B.N0
    have := B.tf0
    have := B.E0
    have := B.δ0
    positivity
  D1 := by linarith [B.D1]
  big := by
    have h1 : unit64 * 2 ^ (-900 : ℤ) ≤ h := (mul_le_mul_of_nonneg_left B.tf1 unit64_pos.le).trans B.hh
    have hM0 := B.bounds.M0
    have h2 : 25 * (M + 1) * (unit64 * 2 ^ (-900 : ℤ)) ≤ 1 := (mul_le_mul_of_nonneg_left h1 (by positivity)).trans B.hM
    have h3 : unit64 * 2 ^ (-900 : ℤ) = 2 ^ (-953 : ℤ) := by rw [unit64, Spec.roundoff, two_pow_mul]; norm_num
    have h4 : (2 : ℝ) ^ (950 : ℤ) * 2 ^ (-953 : ℤ) = 1 / 8 := by rw [two_pow_mul]; norm_num
    rw [h3] at h2
    by_contra hc
    push Not at hc
    have h5 := mul_lt_mul_of_pos_right hc (two_pow_pos (-953))
    rw [h4] at h5
    linarith
theorem R1 : R ≤ 2 ^ (60 : ℤ) := by
  have h1 := B.E1
  rw [B.E_eq] at h1
  have hM0 := B.bounds.M0
  have := B.tf0
  have h2 : unit64 * R ≤ unit64 * (25 * (M + 1) * tf + R + 30) :=
    mul_le_mul_of_nonneg_left (by have : 0 ≤ (M + 1) * tf := by positivity
                                  linarith) unit64_pos.le
  have h3 : R ≤ 2 ^ (53 : ℤ) * (1 / 4) := by
    have h4 : unit64 * 2 ^ (53 : ℤ) = 1 := by rw [unit64, Spec.roundoff, two_pow_mul]; norm_num
    have := mul_le_mul_of_nonneg_left (h2.trans h1) (two_pow_pos 53).le
    have e : (2 : ℝ) ^ (53 : ℤ) * (unit64 * R) = (unit64 * 2 ^ (53 : ℤ)) * R := by ring
    rw [e, h4, one_mul] at this
    exact this
  norm_num at h3 ⊢
  linarith

/-- The error of an argument of a stage. -/
theorem sigma : 25 * (2 * h * D + unit64 * tf * M) + 27 * unit64 ≤ 1 / 2 ∧
    25 * (2 * h * D + unit64 * tf * M) + 27 * unit64 + unit64 * (R + 2) ≤ 1 / 2 ∧
    δ + L * (25 * (2 * h * D + unit64 * tf * M) + 27 * unit64 + unit64 * (R + 2)) + 10 * N * (unit64 * tf) ≤ D := by
  have hu := unit64_pos
  have hM0 := B.bounds.M0
  have hL0 := B.bounds.L0
  have hR := B.R0
  have htf := B.tf0
  have hh := B.h0
  have hD := B.sizes.D0
  have e1 : 25 * (2 * h * D + unit64 * tf * M) + 27 * unit64 + unit64 * (R + 2) ≤ 50 * h * D + E := by
    rw [B.E_eq]
    have : 0 ≤ unit64 * tf := by positivity
    linarith
  have e2 : 50 * h * D ≤ 1 / 4 := by
    have i1 : 25 * h ≤ 1 := by
      have := B.hM
      have : 0 ≤ M * h := by positivity
      linarith
    have i2 : 50 * h * D ≤ 2 * D := mul_le_mul_of_nonneg_right (by linarith) hD
    linarith [B.D1]
  have e3 : 0 ≤ unit64 * (R + 2) := by positivity
  refine ⟨by linarith [B.E1], by linarith [B.E1], ?_⟩
  have e4 := mul_le_mul_of_nonneg_left e1 hL0
  have e5 : L * (50 * h * D + E) ≤ D / 2 + L * E := by
    have := mul_le_mul_of_nonneg_right B.hL hD
    linarith
  have e6 := B.D_eq
  linarith

end Budget

section vals
variable {t d : B64} {u : Vec n B64} {υ : Fin n → ℝ} {τ τ' k : ℝ}

/-- The values of the current point `(t, u)` and of the step size `d`; `τ'` is the next recorded time. -/
structure Vals (t0 tf R h : ℝ) (t d : B64) (u : Vec n B64) (υ : Fin n → ℝ) (τ τ' k : ℝ) : Prop where
  vt : t.x = fin τ
  vd : d.x = fin k
  vt' : (t + d).x = fin τ'
  vu : ∀ i, (u i).x = fin (υ i)
  k0 : 0 ≤ k
  ge : t0 ≤ τ
  le : τ ≤ τ'
  le' : τ' ≤ tf
  hh : τ' - τ ≤ h
  υ1 : ∀ i, |υ i| ≤ R + 1 / 2

variable (B : Budget f g t0 tf R M L N δ E D h) (V : Vals t0 tf R h t d u υ τ τ' k)
include B V

theorem Vals.width : Width M h (unit64 * tf) k (τ' - τ) where
  h0 := B.h0.le
  hM := B.hM
  h'0 := by linarith [V.le]
  h'h := V.hh
  k0 := V.k0
  near := by
    have := B64.add_fine V.vt V.vd V.vt'
    rw [abs_of_nonneg (show 0 ≤ τ' by linarith [B.t00, V.ge, V.le]), abs_sub_comm] at this
    rw [show k - (τ' - τ) = τ + k - τ' by ring]
    exact this.trans (mul_le_mul_of_nonneg_left V.le' unit64_pos.le)
  kh := by
    have := B64.add_fine V.vt V.vd V.vt'
    rw [abs_of_nonneg (show 0 ≤ τ' by linarith [B.t00, V.ge, V.le]), abs_sub_comm] at this
    have h1 := this.trans (mul_le_mul_of_nonneg_left V.le' unit64_pos.le)
    have h2 := (abs_le.1 h1).2
    linarith [B.hh, V.hh]

/-- The evaluation times. -/
theorem Vals.time {a : B64} {c : ℝ} (ha : Coef a c) (c0 : 0 ≤ c) (c1 : c ≤ 9 / 10) :
    ∃ x, (t + a * d).x = fin x ∧ x ∈ Icc t0 tf ∧ τ + c * (τ' - τ) ∈ Icc t0 tf ∧ |x - (τ + c * (τ' - τ))| ≤ 10 * (unit64 * tf) := by
  obtain ⟨r, er, hr⟩ := ha
  have hu := unit64_le
  have hu0 := unit64_pos
  rw [abs_of_nonneg c0] at hr
  have hr' := abs_le.1 hr
  have hc : unit64 * c ≤ 1e-15 * 1 := mul_le_mul hu (by linarith) c0 (by norm_num)
  have hc' : unit64 * c ≤ 1 * c := mul_le_mul_of_nonneg_right (by linarith) c0
  have r0 : 0 ≤ r := by linarith
  have r1 : r ≤ 1 := by linarith
  have htf := B.tf0
  have W := V.width B
  have k0 := V.k0
  obtain ⟨p, ep, p0, pk⟩ := laws.mul_shrink' V.vd k0 er r0 r1
  have m1 := laws.add_mono V.vt ep p0
  have m2 := m1.2 d k V.vd pk
  rw [V.vt'] at m2
  obtain ⟨x, ex, x1, x2⟩ := mid_cases m1.1 m2
  have hrk : |r * k| ≤ k := by
    rw [abs_of_nonneg (by positivity)]; exact mul_le_of_le_one_left k0 r1
  have hk1 : k ≤ 1 := by
    have := W.kh
    have h1 := B.hM
    have : 0 ≤ M * h := mul_nonneg B.bounds.M0 B.h0.le
    linarith
  obtain ⟨p', ep', hp⟩ := B64.mul_near er V.vd (hrk.trans (hk1.trans (by
    have : (2 : ℝ) ^ (0 : ℤ) ≤ big64 := le_big64 (by norm_num)
    simpa using this)))
  rw [ep] at ep'
  obtain rfl := fin_inj.1 ep'
  refine ⟨x, ex, ⟨by linarith [V.ge], by linarith [V.le']⟩, ?_, ?_⟩
  · have h1 : 0 ≤ c * (τ' - τ) := mul_nonneg c0 (by linarith [V.le])
    have h2 : c * (τ' - τ) ≤ 1 * (τ' - τ) := mul_le_mul_of_nonneg_right (by linarith) (by linarith [V.le])
    exact ⟨by linarith [V.ge], by linarith [V.le']⟩
  · have a1 := B64.add_fine V.vt ep ex
    have x0 : 0 ≤ x := by linarith [B.t00, V.ge]
    rw [abs_of_nonneg x0] at a1
    have a2 : unit64 * x ≤ unit64 * tf := mul_le_mul_of_nonneg_left (by linarith [V.le']) hu0.le
    have a3 : |r * k - c * k| ≤ unit64 * k := by
      rw [← sub_mul, abs_mul, abs_of_nonneg k0]
      exact mul_le_mul_of_nonneg_right (hr.trans (by linarith [mul_le_mul_of_nonneg_left (show c ≤ 1 by linarith) hu0.le])) k0
    have a4 : |c * k - c * (τ' - τ)| ≤ unit64 * tf := by
      rw [← mul_sub, abs_mul, abs_of_nonneg c0]
      exact (mul_le_mul (show c ≤ 1 by linarith) W.near (abs_nonneg _) zero_le_one).trans_eq (one_mul _)
    have a5 : unit64 * k ≤ unit64 * (2 * tf) := by
      have h1 := abs_le.1 W.near
      have h2 : unit64 * tf ≤ 1 * tf := mul_le_mul_of_nonneg_right (by linarith) htf.le
      exact mul_le_mul_of_nonneg_left (by linarith [B.t00, V.ge, V.le']) hu0.le
    have a6 : unit64 * |r * k| ≤ unit64 * k := mul_le_mul_of_nonneg_left hrk hu0.le
    have a7 : tiny64 ≤ unit64 * tf := by
      refine le_trans ?_ (mul_le_mul_of_nonneg_left B.tf1 hu0.le)
      rw [tiny64, unit64, Spec.roundoff, two_pow_mul]; exact two_pow_le (by norm_num)
    have e1 : x - (τ + c * (τ' - τ)) = (x - (τ + p)) + ((p - r * k) + (r * k - c * k)) + (c * k - c * (τ' - τ)) := by ring
    have e2 := abs_add_three (x - (τ + p)) ((p - r * k) + (r * k - c * k)) (c * k - c * (τ' - τ))
    have e3 := abs_add_le (p - r * k) (r * k - c * k)
    have e4 : 0 ≤ unit64 * tf := by positivity
    rw [e1]
    linarith

/-- The arguments of the stages. -/
theorem Vals.arg {a : Vec n B64} {A : Fin n → ℝ} {C m w : ℝ} (ha : ∀ i, Acc M D (a i) (A i) C m) (hm : m ≤ 11) (hC : C ≤ 25)
    (hw : k ≤ w) (hw' : w ≤ 2 * h) :
    VNear (fun i => u i + d * a i) (fun i => υ i + (τ' - τ) * A i)
      (C * (w * D + unit64 * tf * M) + 27 * unit64 + unit64 * (R + 2)) ∧
    ‖fun i => υ i + (τ' - τ) * A i‖ ≤ R + 3 / 2 := by
  have W := V.width B
  have S := B.sizes
  have hR := B.R0
  have hD := S.D0
  have hC' : C * (w * D + unit64 * tf * M) ≤ 25 * (2 * h * D + unit64 * tf * M) := by
    have := B.h0
    have := B.tf0
    have := S.M0
    have := unit64_pos
    have h1 := mul_le_mul_of_nonneg_right hw' hD
    refine mul_le_mul hC (by linarith) ?_ (by norm_num)
    have := mul_nonneg (V.k0.trans hw) hD
    positivity
  constructor
  · refine VNear.of fun i => ?_
    obtain ⟨q, eq, hq, hz⟩ := (ha i).inc S W V.vd hm hC hw
    exact arg_near hR B.R1 (V.vu i) eq (V.υ1 i) hz hq (by linarith [B.sigma.1])
  · refine (pi_norm_le_iff_of_nonneg (by linarith)).2 fun i => ?_
    obtain ⟨q, eq, hq, hz⟩ := (ha i).inc S W V.vd hm hC hw
    have := abs_add_le (υ i) ((τ' - τ) * A i)
    rw [Real.norm_eq_abs]
    linarith [V.υ1 i]

theorem Vals.stage {v : Vec n B64} {w : Fin n → ℝ} {C : ℝ} (hC : C ≤ 25)
    (hv : VNear v w (C * (2 * h * D + unit64 * tf * M) + 27 * unit64 + unit64 * (R + 2)) ∧ ‖w‖ ≤ R + 3 / 2)
    {a : B64} {x y : ℝ} (ha : a.x = fin x) (h1 : x ∈ Icc t0 tf) (h2 : y ∈ Icc t0 tf) (h3 : |x - y| ≤ 10 * (unit64 * tf)) :
    VNear (g v a) (f y w) D := by
  have hh := B.h0
  have htf := B.tf0
  have hD := B.sizes.D0
  have hM := B.sizes.M0
  have hR := B.R0
  have hu := unit64_pos
  have hC' : C * (2 * h * D + unit64 * tf * M) ≤ 25 * (2 * h * D + unit64 * tf * M) :=
    mul_le_mul_of_nonneg_right hC (by positivity)
  obtain ⟨⟨r, e1, e2⟩, hw⟩ := hv
  obtain ⟨r', f1, f2⟩ := stage_near (σ := 25 * (2 * h * D + unit64 * tf * M) + 27 * unit64 + unit64 * (R + 2)) B.bounds B.lip B.eval
    B.N0 ⟨r, e1, fun i => (e2 i).trans (by linarith)⟩ hw B.sigma.2.1 (by positivity) hR ha h1 h2 h3
  exact ⟨r', f1, fun i => (f2 i).trans B.sigma.2.2⟩

end vals

theorem VNear.term (S : Sizes M D) {a : B64} {c : ℝ} {v : Vec n B64} {w : Fin n → ℝ} (hv : VNear v w D) (hw : ‖w‖ ≤ M) (ha : Coef a c)
    (h1 : 2 ^ (-10 : ℤ) ≤ |c| := by norm_num [abs_of_pos, abs_of_neg]) (h2 : |c| ≤ 32 := by norm_num [abs_of_pos, abs_of_neg])
    (i : Fin n) : Acc M D (a * v i) (c * w i) |c| 3 := by
  obtain ⟨r, e1, e2⟩ := hv
  exact Acc.term S ha h1 h2 (e1 i) ((norm_le_pi_norm w i).trans hw) (e2 i)

/-- **One step in double precision** differs from the exact one by rounding errors only. -/
theorem step_near {t d : B64} {u u' : Vec n B64} {υ : Fin n → ℝ} {τ τ' k : ℝ} {abstol reltol err : B64}
    (B : Budget f g t0 tf R M L N δ E D h) (V : Vals t0 tf R h t d u υ τ τ' k)
    (H : FloatStep g abstol reltol t u d u' err) : VNear u' (Conv.step f τ υ (τ' - τ)) (2 * (τ' - τ) * D + E) := by
  obtain ⟨k1, k2, k3, k4, k5, k6, -, e1, e2, e3, e4, e5, e6, e7, -, -⟩ := H
  have S := B.sizes
  have W := V.width B
  have hR := B.R0
  have hυ : ‖υ‖ ≤ R + 2 - 1 := (pi_norm_le_iff_of_nonneg (by linarith)).2 fun i => (V.υ1 i).trans (by linarith)
  have ht' : τ + (τ' - τ) ≤ tf := by linarith [V.le']
  have hM : 25 * M * (τ' - τ) ≤ 1 := by
    have h1 := mul_le_mul_of_nonneg_left V.hh S.M0
    have h2 := B.hM
    have h3 := B.h0
    linarith
  have b1 := Conv.bk1 B.bounds hυ V.ge W.h'0 ht' hM
  have b2 := Conv.bk2 B.bounds hυ V.ge W.h'0 ht' hM
  have b3 := Conv.bk3 B.bounds hυ V.ge W.h'0 ht' hM
  have b4 := Conv.bk4 B.bounds hυ V.ge W.h'0 ht' hM
  have b5 := Conv.bk5 B.bounds hυ V.ge W.h'0 ht' hM
  have b6 := Conv.bk6 B.bounds hυ V.ge W.h'0 ht' hM
  have hθ : 0 ≤ unit64 * tf := mul_nonneg unit64_pos.le B.tf0.le
  have hP : 0 ≤ 2 * h * D + unit64 * tf * M := by
    have := B.h0
    have := S.D0
    have := S.M0
    positivity
  have n1 : VNear k1 (Conv.k1 f τ υ) D := by
    rw [e1]
    refine V.stage B (C := 25) le_rfl ⟨⟨υ, V.vu, fun i => ?_⟩, ?_⟩ V.vt ⟨V.ge, by linarith [V.le, V.le']⟩ ⟨V.ge, by linarith [V.le, V.le']⟩
      (by rw [sub_self, abs_zero]; positivity)
    · rw [sub_self, abs_zero]
      have := unit64_pos
      positivity
    · exact (pi_norm_le_iff_of_nonneg (by linarith)).2 fun i => (V.υ1 i).trans (by linarith)
  have n2 : VNear k2 (Conv.k2 f τ υ (τ' - τ)) D := by
    rw [e2]
    obtain ⟨x, x1, x2, x3, x4⟩ := V.time B (a := 0.2) (c := 1 / 5)
      (coef_lit 2 true 1 (by norm_num) (by norm_num [abs_of_pos]) (by norm_num [abs_of_pos])) (by norm_num) (by norm_num)
    refine V.stage B (C := 25) le_rfl ⟨?_, ?_⟩ x1 x2 x3 x4
    · refine VNear.of fun i => ?_
      obtain ⟨r, r1, r2⟩ := n1
      obtain ⟨q, eq, hq, hz⟩ := inc_two S W V.vd (r1 i) ((norm_le_pi_norm _ i).trans b1) (r2 i) B.hh
      simpa [Conv.s2] using arg_near hR B.R1 (V.vu i) eq (V.υ1 i) hz hq B.sigma.1
    · refine (pi_norm_le_iff_of_nonneg (by linarith)).2 fun i => ?_
      obtain ⟨r, r1, r2⟩ := n1
      obtain ⟨q, eq, hq, hz⟩ := inc_two S W V.vd (r1 i) ((norm_le_pi_norm _ i).trans b1) (r2 i) B.hh
      have := abs_add_le (υ i) ((τ' - τ) * (1 / 5 * Conv.k1 f τ υ i))
      have h2 : Conv.s2 f τ υ (τ' - τ) i = υ i + (τ' - τ) * (1 / 5 * Conv.k1 f τ υ i) := by simp [Conv.s2]
      rw [Real.norm_eq_abs, h2]
      linarith [V.υ1 i]
  have n3 : VNear k3 (Conv.k3 f τ υ (τ' - τ)) D := by
    have hs : Conv.s3 f τ υ (τ' - τ) = fun m => υ m + (τ' - τ) * (3/40 * Conv.k1 f τ υ m + 9/40 * Conv.k2 f τ υ (τ' - τ) m) := by
      funext m; simp [Conv.s3]; ring
    rw [e3, Conv.k3, hs]
    obtain ⟨x, x1, x2, x3, x4⟩ := V.time B (a := 0.3) (c := 3 / 10)
      (coef_lit 3 true 1 (by norm_num) (by norm_num [abs_of_pos]) (by norm_num [abs_of_pos])) (by norm_num) (by norm_num)
    have a := fun i => ((n1.term S b1 (coef_ratio 30 400 3 40 (3/40)) (i := i)).add S
      (n2.term S b2 (coef_ratio 90 400 9 40 (9/40)) (i := i)) (by norm_num) (by norm_num) (by norm_num [abs_of_pos, abs_of_neg]))
    exact V.stage B (by norm_num [abs_of_pos, abs_of_neg]) (V.arg B a (by norm_num) (by norm_num [abs_of_pos, abs_of_neg]) W.kh le_rfl) x1 x2 x3 x4
  have n4 : VNear k4 (Conv.k4 f τ υ (τ' - τ)) D := by
    have hs : Conv.s4 f τ υ (τ' - τ) = fun m => υ m + (τ' - τ) * (44/45 * Conv.k1 f τ υ m + -56/15 * Conv.k2 f τ υ (τ' - τ) m + 32/9 * Conv.k3 f τ υ (τ' - τ) m) := by
      funext m; simp [Conv.s4]; ring
    rw [e4, Conv.k4, hs]
    obtain ⟨x, x1, x2, x3, x4⟩ := V.time B (a := 0.8) (c := 4 / 5)
      (coef_lit 8 true 1 (by norm_num) (by norm_num [abs_of_pos]) (by norm_num [abs_of_pos])) (by norm_num) (by norm_num)
    have a := fun i => (((n1.term S b1 (coef_ratio 440 450 44 45 (44/45)) (i := i)).add S
      (n2.term S b2 (coef_ratio_neg 560 150 56 15 (-56/15)) (i := i)) (by norm_num) (by norm_num) (by norm_num [abs_of_pos, abs_of_neg])).add S
      (n3.term S b3 (coef_ratio 320 90 32 9 (32/9)) (i := i)) (by norm_num) (by norm_num) (by norm_num [abs_of_pos, abs_of_neg]))
    exact V.stage B (by norm_num [abs_of_pos, abs_of_neg]) (V.arg B a (by norm_num) (by norm_num [abs_of_pos, abs_of_neg]) W.kh le_rfl) x1 x2 x3 x4
  have n5 : VNear k5 (Conv.k5 f τ υ (τ' - τ)) D := by
    have hs : Conv.s5 f τ υ (τ' - τ) = fun m => υ m + (τ' - τ) * (19372/6561 * Conv.k1 f τ υ m + -25360/2187 * Conv.k2 f τ υ (τ' - τ) m + 64448/6561 * Conv.k3 f τ υ (τ' - τ) m + -212/729 * Conv.k4 f τ υ (τ' - τ) m) := by
      funext m; simp [Conv.s5]; ring
    rw [e5, Conv.k5, hs]
    obtain ⟨x, x1, x2, x3, x4⟩ := V.time B (a := 8.0 / 9.0) (c := 8 / 9)
      (coef_ratio 80 90 8 9 (8/9)) (by norm_num) (by norm_num)
    have a := fun i => ((((n1.term S b1 (coef_ratio 193720 65610 19372 6561 (19372/6561)) (i := i)).add S
      (n2.term S b2 (coef_ratio_neg 253600 21870 25360 2187 (-25360/2187)) (i := i)) (by norm_num) (by norm_num) (by norm_num [abs_of_pos, abs_of_neg])).add S
      (n3.term S b3 (coef_ratio 644480 65610 64448 6561 (64448/6561)) (i := i)) (by norm_num) (by norm_num) (by norm_num [abs_of_pos, abs_of_neg])).add S
      (n4.term S b4 (coef_ratio_neg 2120 7290 212 729 (-212/729)) (i := i)) (by norm_num) (by norm_num) (by norm_num [abs_of_pos, abs_of_neg]))
    exact V.stage B (by norm_num [abs_of_pos, abs_of_neg]) (V.arg B a (by norm_num) (by norm_num [abs_of_pos, abs_of_neg]) W.kh le_rfl) x1 x2 x3 x4
  have n6 : VNear k6 (Conv.k6 f τ υ (τ' - τ)) D := by
    have hs : Conv.s6 f τ υ (τ' - τ) = fun m => υ m + (τ' - τ) * (9017/3168 * Conv.k1 f τ υ m + -355/33 * Conv.k2 f τ υ (τ' - τ) m + 46732/5247 * Conv.k3 f τ υ (τ' - τ) m + 49/176 * Conv.k4 f τ υ (τ' - τ) m + -5103/18656 * Conv.k5 f τ υ (τ' - τ) m) := by
      funext m; simp [Conv.s6]; ring
    rw [e6, Conv.k6, hs]
    have hx : τ' ∈ Icc t0 tf := ⟨by linarith [V.ge, V.le], V.le'⟩
    have hy : τ + 1 * (τ' - τ) = τ' := by ring
    have a := fun i => (((((n1.term S b1 (coef_ratio 90170 31680 9017 3168 (9017/3168)) (i := i)).add S
      (n2.term S b2 (coef_ratio_neg 3550 330 355 33 (-355/33)) (i := i)) (by norm_num) (by norm_num) (by norm_num [abs_of_pos, abs_of_neg])).add S
      (n3.term S b3 (coef_ratio 467320 52470 46732 5247 (46732/5247)) (i := i)) (by norm_num) (by norm_num) (by norm_num [abs_of_pos, abs_of_neg])).add S
      (n4.term S b4 (coef_ratio 490 1760 49 176 (49/176)) (i := i)) (by norm_num) (by norm_num) (by norm_num [abs_of_pos, abs_of_neg])).add S
      (n5.term S b5 (coef_ratio_neg 51030 186560 5103 18656 (-5103/18656)) (i := i)) (by norm_num) (by norm_num) (by norm_num [abs_of_pos, abs_of_neg]))
    exact V.stage B (by norm_num [abs_of_pos, abs_of_neg]) (V.arg B a (by norm_num) (by norm_num [abs_of_pos, abs_of_neg]) W.kh le_rfl) V.vt' hx (by rwa [hy]) (by rw [hy, sub_self, abs_zero]; positivity)
  have hs : Conv.step f τ υ (τ' - τ) = fun m => υ m + (τ' - τ) * (35/384 * Conv.k1 f τ υ m + 500/1113 * Conv.k3 f τ υ (τ' - τ) m + 125/192 * Conv.k4 f τ υ (τ' - τ) m + -2187/6784 * Conv.k5 f τ υ (τ' - τ) m + 11/84 * Conv.k6 f τ υ (τ' - τ) m) := by
    funext m; simp [Conv.step]; ring
  have a := fun i => (((((n1.term S b1 (coef_ratio 350 3840 35 384 (35/384)) (i := i)).add S
      (n3.term S b3 (coef_ratio 5000 11130 500 1113 (500/1113)) (i := i)) (by norm_num) (by norm_num) (by norm_num [abs_of_pos, abs_of_neg])).add S
      (n4.term S b4 (coef_ratio 1250 1920 125 192 (125/192)) (i := i)) (by norm_num) (by norm_num) (by norm_num [abs_of_pos, abs_of_neg])).add S
      (n5.term S b5 (coef_ratio_neg 21870 67840 2187 6784 (-2187/6784)) (i := i)) (by norm_num) (by norm_num) (by norm_num [abs_of_pos, abs_of_neg])).add S
      (n6.term S b6 (coef_ratio 110 840 11 84 (11/84)) (i := i)) (by norm_num) (by norm_num) (by norm_num [abs_of_pos, abs_of_neg]))
  obtain ⟨r, r1, r2⟩ := (V.arg B a (by norm_num) (by norm_num [abs_of_pos, abs_of_neg]) (w := τ' - τ + unit64 * tf) (by linarith [(abs_le.1 W.near).2]) (by linarith [V.hh, B.hh])).1
  rw [e7, hs]
  refine ⟨r, r1, fun i => (r2 i).trans ?_⟩
  have hC : |(35/384 : ℝ)| + |(500/1113 : ℝ)| + |(125/192 : ℝ)| + |(-2187/6784 : ℝ)| + |(11/84 : ℝ)| ≤ 2 := by
    norm_num [abs_of_pos, abs_of_neg]
  have hP' : 0 ≤ (τ' - τ + unit64 * tf) * D + unit64 * tf * M := by
    have i1 := W.h'0
    have i2 := S.D0
    have i3 := S.M0
    positivity
  have h1 := mul_le_mul_of_nonneg_right hC hP'
  have h2 : unit64 * tf * D ≤ unit64 * tf * 1 := mul_le_mul_of_nonneg_left S.D1 hθ
  have h3 := unit64_pos
  have h4 := B.E_eq
  have h5 : 0 ≤ unit64 * tf * M := mul_nonneg hθ S.M0
  linarith

end step

end
end Cyphus
