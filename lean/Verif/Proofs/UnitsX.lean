import Verif.Proofs.UnitsDP5
import Verif.Arith.X
import Mathlib.Tactic.Ring
import Mathlib.Tactic.Linarith
/-!
# Exact arithmetic: multiplication by a non-zero number commutes with the operations
-/

namespace Cyphus
open X
set_option autoImplicit false
set_option linter.unusedSectionVars false

namespace X
variable {c : ℝ}

theorem infSign_pos (h : 0 < c) (a : ℝ) : infSign (c * a) = infSign a := by
  simp only [infSign, mul_pos_iff_of_pos_left h, mul_neg_iff, h, not_lt.2 h.le, true_and, false_and, or_false]

theorem infSign_neg (a : ℝ) : infSign (-a) = neg (infSign a) := by
  simp only [infSign, Left.neg_pos_iff, Left.neg_neg_iff]
  rcases lt_trichotomy a 0 with h | h | h
  · simp [h, not_lt.2 h.le, neg]
  · simp [h, neg]
  · simp [h, not_lt.2 h.le, neg]

theorem mul_infSign (h : 0 < c) (a : ℝ) : mul (fin c) (infSign a) = infSign a := by
  simp only [infSign]
  split_ifs <;> simp [mul, infSign, h, not_lt.2 h.le]

/-- Multiplication by a positive number. -/
theorem pos_pinf (h : 0 < c) : mul (fin c) pinf = pinf := by simp [mul, infSign, h]
theorem pos_ninf (h : 0 < c) : mul (fin c) ninf = ninf := by simp [mul, infSign, h, not_lt.2 h.le]
theorem pos_nan : mul (fin c) nan = nan := rfl

theorem pos_add (h : 0 < c) (x y : X) : add (mul (fin c) x) (mul (fin c) y) = mul (fin c) (add x y) := by
  cases x <;> cases y <;> simp only [pos_pinf h, pos_ninf h, pos_nan, add] <;> simp only [mul, add, mul_add]

theorem pos_neg (h : 0 < c) (x : X) : neg (mul (fin c) x) = mul (fin c) (neg x) := by
  cases x <;> simp only [pos_pinf h, pos_ninf h, pos_nan, neg] <;> simp only [mul, neg, mul_neg]

theorem pos_mul (h : 0 < c) (x y : X) : mul x (mul (fin c) y) = mul (fin c) (mul x y) := by
  have m1 (b : ℝ) : mul pinf (fin b) = infSign b := rfl
  have m2 (b : ℝ) : mul ninf (fin b) = infSign (-b) := rfl
  have m3 (a : ℝ) : mul (fin a) pinf = infSign a := rfl
  have m4 (a : ℝ) : mul (fin a) ninf = infSign (-a) := rfl
  have m5 (a b : ℝ) : mul (fin a) (fin b) = fin (a * b) := rfl
  cases y with
  | nan => cases x <;> rfl
  | pinf =>
    rw [pos_pinf h]
    cases x with
    | nan => rfl
    | fin a => rw [m3, mul_infSign h]
    | pinf => exact (pos_pinf h).symm
    | ninf => exact (pos_ninf h).symm
  | ninf =>
    rw [pos_ninf h]
    cases x with
    | nan => rfl
    | fin a => rw [m4, mul_infSign h]
    | pinf => exact (pos_ninf h).symm
    | ninf => exact (pos_pinf h).symm
  | fin b =>
    rw [m5]
    cases x with
    | nan => rfl
    | fin a => rw [m5, m5, m5, mul_left_comm]
    | pinf => rw [m1, m1, mul_infSign h, infSign_pos h]
    | ninf => rw [m2, m2, mul_infSign h, ← mul_neg, infSign_pos h]

theorem mul_comm' (x y : X) : mul x y = mul y x := by
  cases x <;> cases y <;> simp only [mul, mul_comm]

theorem pos_div (h : 0 < c) (x y : X) : div (mul (fin c) x) y = mul (fin c) (div x y) := by
  cases x with
  | nan => cases y <;> rfl
  | ninf => cases y with
    | fin b => rw [pos_ninf h]; simp only [div]; split <;> simp only [pos_pinf h, pos_ninf h]
    | _ => rw [pos_ninf h]; rfl
  | pinf => cases y with
    | fin b => rw [pos_pinf h]; simp only [div]; split <;> simp only [pos_pinf h, pos_ninf h]
    | _ => rw [pos_pinf h]; rfl
  | fin a => cases y with
    | fin b =>
      by_cases hb : b = 0
      · rw [show div (fin a) (fin b) = infSign a from if_pos hb, mul_infSign h, ← infSign_pos h]
        exact if_pos hb
      · rw [show div (fin a) (fin b) = fin (a / b) from if_neg hb]
        change (if b = 0 then _ else fin (c * a / b)) = fin (c * (a / b))
        rw [if_neg hb, mul_div_assoc]
    | nan => rfl
    | _ => simp only [mul, div, mul_zero]

theorem neg_add (x y : X) : add (neg x) (neg y) = neg (add x y) := by
  cases x <;> cases y <;> simp only [neg, add]
  · rw [_root_.neg_add]

theorem neg_neg' (x : X) : neg (neg x) = x := by
  cases x <;> simp only [neg, _root_.neg_neg]

theorem mul_neg' (x y : X) : mul x (neg y) = neg (mul x y) := by
  cases x <;> cases y <;> try rfl
  · change infSign (- -_) = neg (infSign (-_)); rw [infSign_neg]
  · change infSign _ = neg (infSign (-_)); rw [infSign_neg, neg_neg']
  · change fin (_ * -_) = fin (-(_ * _)); rw [mul_neg]
  · change infSign (-_) = neg (infSign _); rw [infSign_neg]
  · change infSign (-_) = neg (infSign _); rw [infSign_neg]

theorem neg_mul' (x y : X) : mul (neg x) y = neg (mul x y) := by
  rw [mul_comm', mul_neg', mul_comm']

theorem neg_div (x y : X) : div (neg x) y = neg (div x y) := by
  cases x with
  | nan => cases y <;> rfl
  | ninf => cases y with
    | fin b => simp only [div, neg]; split <;> rfl
    | _ => rfl
  | pinf => cases y with
    | fin b => simp only [div, neg]; split <;> rfl
    | _ => rfl
  | fin a => cases y with
    | fin b =>
      by_cases hb : b = 0
      · rw [show div (fin a) (fin b) = infSign a from if_pos hb, ← infSign_neg]
        exact if_pos hb
      · rw [show div (fin a) (fin b) = fin (a / b) from if_neg hb]
        change (if b = 0 then _ else fin (-a / b)) = fin (-(a / b))
        rw [if_neg hb, _root_.neg_div]
    | nan => rfl
    | _ => simp only [neg, div, _root_.neg_zero]

theorem abs_neg' (x : X) : absX (neg x) = absX x := by
  cases x <;> simp only [neg, absX, abs_neg]

theorem pos_abs (h : 0 < c) (x : X) : absX (mul (fin c) x) = mul (fin c) (absX x) := by
  cases x <;> simp only [absX, pos_pinf h, pos_ninf h, pos_nan]
  simp only [mul, abs_mul, abs_of_pos h]

theorem powX_neg (x : X) : powX (neg x) (fin 2) = powX x (fin 2) := by
  cases x with
  | nan => rfl
  | fin a =>
    change powX (fin (-a)) _ = _
    have h : ∀ a : ℝ, powX (fin a) (fin 2) = fin (a ^ 2) := fun a => by
      have := powi_fin a 2 (.inr (by norm_num))
      have e : Fl.powi (fin a) 2 = powX (fin a) (fin ((2 : ℤ) : ℝ)) := rfl
      rw [e] at this
      simpa using this
    rw [h, h, neg_sq]
  | pinf =>
    have h : ¬ ∃ k : ℤ, 2 * (k : ℝ) + 1 = 2 := by
      rintro ⟨k, hk⟩
      have : 2 * k + 1 = 2 := by exact_mod_cast hk
      omega
    simp [powX, neg, h]
  | ninf =>
    have h : ¬ ∃ k : ℤ, 2 * (k : ℝ) + 1 = 2 := by
      rintro ⟨k, hk⟩
      have : 2 * k + 1 = 2 := by exact_mod_cast hk
      omega
    simp [powX, neg, h]

theorem pos_cancel (h : 0 < c) (x y : X) : div (mul (fin c) x) (mul (fin c) y) = div x y := by
  cases y with
  | fin b =>
    cases x with
    | fin a =>
      simp only [mul, div, mul_eq_zero, h.ne', false_or]
      split
      · rw [infSign_pos h]
      · rw [mul_div_mul_left _ _ h.ne']
    | nan => rfl
    | pinf => rw [pos_pinf h]; simp only [mul, div, mul_neg_iff, h, not_lt.2 h.le, true_and, false_and, or_false]
    | ninf => rw [pos_ninf h]; simp only [mul, div, mul_neg_iff, h, not_lt.2 h.le, true_and, false_and, or_false]
  | nan => cases x <;> simp only [pos_pinf h, pos_ninf h, pos_nan, div] <;> simp only [mul]
  | pinf => rw [pos_pinf h]; cases x <;> simp only [pos_pinf h, pos_ninf h, pos_nan, div] <;> simp only [mul]
  | ninf => rw [pos_ninf h]; cases x <;> simp only [pos_pinf h, pos_ninf h, pos_nan, div] <;> simp only [mul]

theorem scaling_pos (h : 0 < c) : Scaling (fin c) (fin c) where
  zero := by rw [show (0.0 : X) = fin 0.0 from rfl, mul_fin]; norm_num
  add := pos_add h
  sub x y := by
    change add (mul (fin c) x) (neg (mul (fin c) y)) = mul (fin c) (add x (neg y))
    rw [pos_neg h, pos_add h]
  neg := pos_neg h
  mul := pos_mul h
  mul' x y := by
    change mul (mul (fin c) x) y = mul (fin c) (mul x y)
    rw [mul_comm' _ y, pos_mul h, mul_comm' y]
  div := pos_div h
  mulAdd x y z := by
    change add (mul (mul (fin c) x) y) (mul (fin c) z) = mul (fin c) (add (mul x y) z)
    rw [mul_comm' _ y, pos_mul h, mul_comm' y, pos_add h]
  kadd := pos_add h
  kmul := pos_mul h
  kdiv := pos_div h
  abs := pos_abs h
  sq x y := by
    change powX (div (mul (fin c) x) (mul (fin c) y)) _ = powX (div x y) _
    rw [pos_cancel h]

theorem scaling_neg (h : 0 < c) : Scaling (fin (-c)) (fin c) := by
  have S := scaling_pos h
  have e (x : X) : fin (-c) * x = neg (fin c * x) := neg_mul' (fin c) x
  constructor
  · rw [e, S.zero]; change fin (-(0.0 : ℝ)) = fin 0.0; norm_num
  · intro x y; rw [e, e, e, ← S.add]; exact neg_add _ _
  · intro x y
    rw [e, e, e, ← S.sub]
    change add (neg _) (neg (neg _)) = neg (add _ (neg _))
    rw [neg_add]
  · intro x; rw [e, e, ← S.neg]; rfl
  · intro x y; rw [e, e, ← S.mul]; exact mul_neg' _ _
  · intro x y; rw [e, e, ← S.mul']; exact neg_mul' _ _
  · intro x y; rw [e, e, ← S.div]; exact neg_div _ _
  · intro x y z
    rw [e, e, e, ← S.mulAdd]
    change add (mul (neg _) y) (neg _) = neg (add (mul _ y) _)
    rw [neg_mul', neg_add]
  · exact S.kadd
  · exact S.kmul
  · exact S.kdiv
  · intro x; rw [e, ← S.abs]; exact abs_neg' _
  · intro x y
    rw [e, ← S.sq x y]
    change powX (div (neg _) _) _ = powX (div _ _) _
    rw [neg_div]
    exact powX_neg _

/-- Multiplication by a non-zero number. -/
theorem scaling (h : c ≠ 0) : Scaling (fin c) (fin |c|) := by
  obtain h | h := lt_or_gt_of_ne h
  · have := scaling_neg (neg_pos.2 h)
    rwa [_root_.neg_neg, ← abs_of_neg h] at this
  · rw [abs_of_pos h]; exact scaling_pos h

theorem pos_le (h : 0 < c) (x y : X) : leX (mul (fin c) x) (mul (fin c) y) = leX x y := by
  cases x <;> cases y <;> (try simp only [pos_pinf h, pos_ninf h, pos_nan]) <;> try rfl
  simp only [mul, leX, mul_le_mul_iff_right₀ h]

theorem pos_max (h : 0 < c) (x y : X) : maxX (mul (fin c) x) (mul (fin c) y) = mul (fin c) (maxX x y) := by
  have key : ∀ x y : X, x ≠ nan → y ≠ nan → maxX x y = if leX x y then y else x := by
    intro x y hx hy
    cases x <;> cases y <;> first | rfl | exact absurd rfl hx | exact absurd rfl hy
  have hn : ∀ x : X, x ≠ nan → mul (fin c) x ≠ nan := by
    intro x hx
    cases x with
    | nan => exact absurd rfl hx
    | pinf => rw [pos_pinf h]; exact hx
    | ninf => rw [pos_ninf h]; exact hx
    | fin r => simp [mul]
  have r : ∀ x : X, maxX x nan = x := fun x => by cases x <;> rfl
  have l : ∀ x : X, maxX nan x = x := fun x => by cases x <;> rfl
  by_cases hx : x = nan
  · rw [hx, pos_nan, l, l]
  · by_cases hy : y = nan
    · rw [hy, pos_nan, r, r]
    · rw [key _ _ hx hy, key _ _ (hn x hx) (hn y hy), pos_le h]
      split <;> rfl

/-- Multiplication by a non-zero number, as needed for `DormandPrince5`. -/
theorem scaling2 (h : c ≠ 0) : Scaling2 (fin c) (fin |c|) (fin (c * c)) := by
  have h2 : 0 < c * c := mul_self_pos.2 h
  have S := scaling h
  refine ⟨S, pos_max (abs_pos.2 h), ?_, ?_, (scaling_pos h2).zero, pos_add h2, ?_, pos_cancel h2⟩
  · intro x y
    have e : c = |c| ∨ c = -|c| := by
      obtain h | h := abs_choice c <;> rw [h]
      · exact .inl rfl
      · exact .inr (_root_.neg_neg c).symm
    obtain e | e := e
    · rw [show fin c * x / (fin |c| * y) = x / y by
        conv_lhs => rw [e, abs_abs]
        exact pos_cancel (abs_pos.2 h) x y]
    · rw [show fin c * x / (fin |c| * y) = neg (x / y) by
        conv_lhs => rw [e, abs_neg, abs_abs]
        have e1 : fin (-|c|) * x = neg (fin |c| * x) := neg_mul' (fin |c|) x
        rw [e1]
        change div (neg _) _ = neg (div x y)
        rw [neg_div]
        exact congrArg neg (pos_cancel (abs_pos.2 h) x y)]
      change mul (neg _) (neg _) = mul _ _
      rw [neg_mul', mul_neg', neg_neg']
  · intro x
    rw [S.mul', S.mul]
    cases hx : x * x with
    | fin r => simp only [mul_fin, mul_assoc]
    | nan => rfl
    | pinf =>
      have e : fin (c * c) * pinf = pinf := pos_pinf h2
      rw [e]
      obtain h | h := lt_or_gt_of_ne h
      · have e1 : fin c * pinf = ninf := by change infSign c = ninf; simp [infSign, h, not_lt.2 h.le]
        have e2 : fin c * ninf = pinf := by change infSign (-c) = pinf; simp [infSign, h]
        rw [e1, e2]
      · have e1 : fin c * pinf = pinf := pos_pinf h
        rw [e1, e1]
    | ninf =>
      have e : fin (c * c) * ninf = ninf := pos_ninf h2
      rw [e]
      obtain h | h := lt_or_gt_of_ne h
      · have e1 : fin c * pinf = ninf := by change infSign c = ninf; simp [infSign, h, not_lt.2 h.le]
        have e2 : fin c * ninf = pinf := by change infSign (-c) = pinf; simp [infSign, h]
        rw [e2, e1]
      · have e1 : fin c * ninf = ninf := pos_ninf h
        rw [e1, e1]
  · intro x
    rw [show (0.0 : X) = fin 0 by rw [X.sci]; norm_num]
    cases x with
    | fin r => simp only [mul_fin, gt_fin, mul_pos_iff_of_pos_left h2]
    | nan => rfl
    | pinf => rw [show fin (c * c) * pinf = pinf from pos_pinf h2]
    | ninf => rw [show fin (c * c) * ninf = ninf from pos_ninf h2]

end X
end Cyphus
