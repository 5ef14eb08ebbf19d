import Verif.Spec.Float
/-!
# Consequences of the laws of floating-point arithmetic
-/

namespace Cyphus
open X
set_option autoImplicit false
set_option linter.unusedSectionVars false

namespace X

theorem le_trans' {a b c : X} (h : Fl.le a b = true) (h' : Fl.le b c = true) : Fl.le a c = true := by
  cases a <;> cases b <;> cases c <;> simp_all [Fl.le, leX]
  exact h.trans h'

theorem le_refl' {a : X} (h : a ≠ nan) : Fl.le a a = true := by
  cases a <;> simp_all [Fl.le, leX]

theorem le_of_lt {a b : X} (h : Fl.lt a b = true) : Fl.le a b = true := by
  cases a <;> cases b <;> simp_all [Fl.le, leX, Fl.lt, ltX]
  exact h.le

theorem lt_of_not_le {a b : X} (ha : a ≠ nan) (hb : b ≠ nan) (h : Fl.le a b = false) : Fl.lt b a = true := by
  cases a <;> cases b <;> simp_all [Fl.le, leX, Fl.lt, ltX]

/-- A value which is at least the real number `r`. -/
theorem ge_cases {r : ℝ} {x : X} (h : Fl.le (fin r) x = true) : (∃ y, x = fin y ∧ r ≤ y) ∨ x = pinf := by
  cases x <;> simp_all [Fl.le, leX]

theorem gt_cases {r : ℝ} {x : X} (h : Fl.lt (fin r) x = true) : (∃ y, x = fin y ∧ r < y) ∨ x = pinf := by
  cases x <;> simp_all [Fl.lt, ltX]

/-- A value between two real numbers. -/
theorem mid_cases {r q : ℝ} {x : X} (h : Fl.le (fin r) x = true) (h' : Fl.le x (fin q) = true) :
    ∃ y, x = fin y ∧ r ≤ y ∧ y ≤ q := by
  cases x <;> simp_all [Fl.le, leX]

theorem le_pinf {x : X} (h : x ≠ nan) : Fl.le x pinf = true := by
  cases x <;> simp_all [Fl.le, leX]

theorem not_lt_cases {x : X} {r : ℝ} (h : Fl.lt x (fin r) = false) : x = nan ∨ Fl.le (fin r) x = true := by
  cases x <;> simp_all [Fl.lt, ltX, Fl.le, leX]

theorem not_le_cases {x : X} {r : ℝ} (h : Fl.le x (fin r) = false) : Fl.lt x (fin r) = false := by
  cases x <;> simp_all [Fl.lt, ltX, Fl.le, leX]
  exact h.le

theorem pinf_mul {b : ℝ} (h : 0 < b) : pinf * fin b = pinf := by
  change infSign b = _; simp [infSign, h]
theorem mul_pinf {b : ℝ} (h : 0 < b) : fin b * pinf = pinf := by
  change infSign b = _; simp [infSign, h]
@[simp] theorem fin_add_pinf (a : ℝ) : fin a + pinf = pinf := rfl
@[simp] theorem pinf_sub_fin (a : ℝ) : pinf - fin a = pinf := rfl
@[simp] theorem fin_div_pinf (a : ℝ) : fin a / pinf = fin 0 := rfl
theorem pinf_div {b : ℝ} (h : 0 ≤ b) : pinf / fin b = pinf := by
  change (if b < 0 then ninf else pinf) = _; rw [if_neg (not_lt.2 h)]
@[simp] theorem abs_pinf : Fl.abs pinf = pinf := rfl
@[simp] theorem round_fin (rnd : ℝ → X) (a : ℝ) : (fin a).round rnd = rnd a := rfl
@[simp] theorem round_pinf (rnd : ℝ → X) : pinf.round rnd = pinf := rfl
@[simp] theorem min_nan_right (a : X) : Fl.min a nan = a := by cases a <;> rfl
@[simp] theorem min_nan_left (a : X) : Fl.min nan a = a := by cases a <;> rfl
@[simp] theorem max_nan_right (a : X) : Fl.max a nan = a := by cases a <;> rfl
@[simp] theorem max_nan_left (a : X) : Fl.max nan a = a := by cases a <;> rfl

theorem le_max_left' {a b : X} {r : ℝ} (h : Fl.le (fin r) a = true) : Fl.le (fin r) (Fl.max a b) = true := by
  obtain ⟨y, rfl, h⟩ | rfl := ge_cases h
  · cases b with
    | fin z => simp_all
    | _ => simp_all [Fl.le, leX, Fl.max, maxX]
  · cases b <;> simp_all [Fl.le, leX, Fl.max, maxX]

theorem lt_max_left' {a b : X} {r : ℝ} (h : Fl.lt (fin r) a = true) : Fl.lt (fin r) (Fl.max a b) = true := by
  obtain ⟨y, rfl, h⟩ | rfl := gt_cases h
  · cases b with
    | fin z => simp_all
    | _ => simp_all [Fl.lt, ltX, leX, Fl.max, maxX]
  · cases b <;> simp_all [Fl.lt, ltX, leX, Fl.max, maxX]

theorem lt_max_right' {a b : X} {r : ℝ} (h : Fl.lt (fin r) b = true) : Fl.lt (fin r) (Fl.max a b) = true := by
  obtain ⟨y, rfl, h⟩ | rfl := gt_cases h
  · cases a with
    | fin z => simp_all
    | _ => simp_all [Fl.lt, ltX, leX, Fl.max, maxX]
  · cases a <;> simp_all [Fl.lt, ltX, leX, Fl.max, maxX]

/-- The smaller of a number at least `r` and of one that is NaN or at least `r`. -/
theorem le_min' {a b : X} {r : ℝ} (ha : Fl.le (fin r) a = true) (hb : b = nan ∨ Fl.le (fin r) b = true) :
    Fl.le (fin r) (Fl.min a b) = true := by
  obtain rfl | hb := hb
  · simpa using ha
  · obtain ⟨y, rfl, ha'⟩ | rfl := ge_cases ha <;> obtain ⟨z, rfl, hb'⟩ | rfl := ge_cases hb
    · simp [ha', hb']
    · simpa [Fl.min, minX, leX] using ha
    · simpa [Fl.min, minX, leX] using hb
    · simp [Fl.min, minX, leX, Fl.le]

end X

namespace FloatLaws
variable {F : Type} [Add F] [Sub F] [Mul F] [Div F] [Neg F] [OfScientific F] [Fl F] {val : F → X} {rnd : ℝ → X}
  (L : FloatLaws val rnd)
include L

theorem rnd_ne_nan (x : ℝ) : rnd x ≠ nan := by
  intro h
  have := L.rnd_mono (le_refl x)
  rw [h] at this
  simp [Fl.le, leX] at this

theorem rnd_zero : rnd 0 = fin 0 := by simpa using L.rnd_nat 0 (by norm_num)
theorem rnd_one : rnd 1 = fin 1 := by simpa using L.rnd_nat 1 (by norm_num)

theorem rnd_nonneg {x : ℝ} (h : 0 ≤ x) : Fl.le (fin 0) (rnd x) = true := by
  have := L.rnd_mono h
  rwa [L.rnd_zero] at this

theorem one_le_rnd {x : ℝ} (h : 1 ≤ x) : Fl.le (fin 1) (rnd x) = true := by
  have := L.rnd_mono h
  rwa [L.rnd_one] at this

/-- Rounding a real number between zero and a number of the format. -/
theorem rnd_mid {x y : ℝ} (h : 0 ≤ x) (hxy : x ≤ y) (hy : rnd y = fin y) :
    ∃ z, rnd x = fin z ∧ 0 ≤ z ∧ z ≤ y := by
  have h1 := L.rnd_nonneg h
  have h2 := L.rnd_mono hxy
  rw [hy] at h2
  exact mid_cases h1 h2

theorem zero : val (0.0 : F) = fin 0 := by
  have := L.lit 0 true 1
  rw [show (0.0 : F) = OfScientific.ofScientific 0 true 1 from rfl, this,
    show (OfScientific.ofScientific 0 true 1 : ℝ) = 0 by norm_num, L.rnd_zero]

theorem one : val (1.0 : F) = fin 1 := by
  have := L.lit 10 true 1
  rw [show (1.0 : F) = OfScientific.ofScientific 10 true 1 from rfl, this,
    show (OfScientific.ofScientific 10 true 1 : ℝ) = 1 by norm_num, L.rnd_one]

theorem le_zero_iff (a : F) : Fl.le (0.0 : F) a = Fl.le (fin 0) (val a) := by rw [L.le, L.zero]
theorem lt_zero_iff (a : F) : Fl.lt (0.0 : F) a = Fl.lt (fin 0) (val a) := by rw [L.lt, L.zero]

/-- Multiplication by one is exact. -/
theorem mul_one_val {a b : F} (ha : val a = fin 1) (hb : Fl.le (fin 0) (val b) = true) : val (a * b) = val b := by
  rw [L.mul, ha]
  obtain ⟨y, e, -⟩ | e := ge_cases hb
  · rw [e, mul_fin, one_mul, round_fin, L.rnd_val e]
  · rw [e, mul_pinf one_pos, round_pinf]

/-- Dividing by a number which is at least one. -/
theorem div_shrink {a b : F} {h : ℝ} (ha : val a = fin h) (h0 : 0 ≤ h) (hb : Fl.le (fin 1) (val b) = true) :
    ∃ z, val (a / b) = fin z ∧ 0 ≤ z ∧ z ≤ h := by
  rw [L.div, ha]
  · obtain ⟨y, e, hy⟩ | e := ge_cases hb
    · have y0 : 0 < y := lt_of_lt_of_le one_pos hy
      rw [e, div_fin y0.ne', round_fin]
      exact L.rnd_mid (div_nonneg h0 y0.le) (div_le_self h0 hy) (L.rnd_val ha)
    · rw [e, fin_div_pinf, round_fin, L.rnd_zero]
      exact ⟨0, rfl, le_rfl, h0⟩
  · intro e; rw [e] at hb; simp at hb; linarith

/-- Dividing by a positive number. -/
theorem div_nonneg' {a b : F} {h : ℝ} (ha : val a = fin h) (h0 : 0 ≤ h) (hb : Fl.lt (fin 0) (val b) = true) :
    Fl.le (fin 0) (val (a / b)) = true := by
  rw [L.div, ha]
  · obtain ⟨y, e, hy⟩ | e := gt_cases hb
    · rw [e, div_fin hy.ne', round_fin]
      exact L.rnd_nonneg (div_nonneg h0 hy.le)
    · rw [e, fin_div_pinf, round_fin, L.rnd_zero]; simp
  · intro e; rw [e] at hb; simp at hb

/-- Multiplying by a number between zero and one. -/
theorem mul_shrink {a b : F} {h c : ℝ} (ha : val a = fin h) (h0 : 0 ≤ h) (hb : val b = fin c) (c0 : 0 ≤ c)
    (c1 : c ≤ 1) : ∃ z, val (a * b) = fin z ∧ 0 ≤ z ∧ z ≤ h := by
  rw [L.mul, ha, hb, mul_fin, round_fin]
  exact L.rnd_mid (mul_nonneg h0 c0) (mul_le_of_le_one_right h0 c1) (L.rnd_val ha)

theorem mul_shrink' {a b : F} {h c : ℝ} (ha : val a = fin h) (h0 : 0 ≤ h) (hb : val b = fin c) (c0 : 0 ≤ c)
    (c1 : c ≤ 1) : ∃ z, val (b * a) = fin z ∧ 0 ≤ z ∧ z ≤ h := by
  rw [L.mul, ha, hb, mul_fin, round_fin]
  exact L.rnd_mid (mul_nonneg c0 h0) (mul_le_of_le_one_left h0 c1) (L.rnd_val ha)

/-- A literal between zero and one. -/
theorem lit_unit (m : ℕ) (s : Bool) (e : ℕ) (h0 : 0 ≤ (OfScientific.ofScientific m s e : ℝ))
    (h1 : (OfScientific.ofScientific m s e : ℝ) ≤ 1) :
    ∃ c, val (OfScientific.ofScientific m s e : F) = fin c ∧ 0 ≤ c ∧ c ≤ 1 := by
  rw [L.lit]
  exact L.rnd_mid h0 h1 L.rnd_one

/-- A literal between one and two. -/
theorem lit_one_two (m : ℕ) (s : Bool) (e : ℕ) (h0 : 1 ≤ (OfScientific.ofScientific m s e : ℝ))
    (h1 : (OfScientific.ofScientific m s e : ℝ) ≤ 2) :
    ∃ c, val (OfScientific.ofScientific m s e : F) = fin c ∧ 1 ≤ c ∧ c ≤ 2 := by
  rw [L.lit]
  refine mid_cases (L.one_le_rnd h0) ?_
  have := L.rnd_mono h1
  have h2 := L.rnd_nat 2 (by norm_num)
  push_cast at h2
  rwa [h2] at this

/-- Adding a nonnegative number moves forward, monotonically. -/
theorem add_mono {a b : F} {t h : ℝ} (ha : val a = fin t) (hb : val b = fin h) (h0 : 0 ≤ h) :
    Fl.le (fin t) (val (a + b)) = true ∧ ∀ c k, val c = fin k → h ≤ k →
      Fl.le (val (a + b)) (val (a + c)) = true := by
  constructor
  · rw [L.add, ha, hb, add_fin, round_fin, ← L.rnd_val ha]
    exact L.rnd_mono (by linarith)
  · intro c k hc hk
    rw [L.add, L.add, ha, hb, hc, add_fin, add_fin, round_fin, round_fin]
    exact L.rnd_mono (by linarith)

/-- The test for the last step: if the proposed step, stretched by a factor of at least one, does not pass the end,
then neither does the step itself. -/
theorem stretch {t h tf c : ℝ} {a b d : F} {k : F} (ha : val a = fin t) (hb : val b = fin h) (h0 : 0 ≤ h)
    (hd : val d = fin tf) (hk : val k = fin c) (hc : 1 ≤ c)
    (hle : Fl.lt (fin 0) (val (a + k * b - d)) = false) : Fl.le (val (a + b)) (fin tf) = true := by
  have h1 : Fl.le (fin h) (val (k * b)) = true := by
    rw [L.mul, hk, hb, mul_fin, round_fin, ← L.rnd_val hb]
    exact L.rnd_mono (by nlinarith)
  have h2 : Fl.le (val (a + b)) (val (a + k * b)) = true := by
    obtain ⟨y, e, hy⟩ | e := ge_cases h1
    · exact (L.add_mono ha hb h0).2 _ _ e hy
    · rw [L.add a (k * b), e, ha, fin_add_pinf, round_pinf]
      refine le_pinf ?_
      rw [L.add, ha, hb, add_fin, round_fin]
      exact L.rnd_ne_nan _
  refine le_trans' h2 ?_
  have h3 : Fl.le (fin t) (val (a + k * b)) = true := le_trans' (L.add_mono ha hb h0).1 h2
  obtain ⟨y, e, hy⟩ | e := ge_cases h3
  · rw [e]
    by_contra hlt
    simp only [le_fin, decide_eq_true_eq, not_le] at hlt
    have := L.rnd_pos hd e hlt
    rw [L.sub, e, hd, sub_fin, round_fin, this] at hle
    simp at hle
  · rw [L.sub, e, hd, pinf_sub_fin, round_pinf] at hle
    simp [Fl.lt, ltX] at hle

end FloatLaws
end Cyphus
