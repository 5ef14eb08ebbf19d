import Verif.Proofs.UnitsX
import Verif.Arith.Binary64
/-!
# Double precision: changing the sign commutes with the operations
-/

namespace Cyphus
open X
set_option autoImplicit false

theorem roundUnb_neg (x : ℝ) : roundUnb (-x) = -roundUnb x := by
  unfold roundUnb
  rcases lt_trichotomy x 0 with h | rfl | h
  · rw [if_pos (by linarith), if_neg (by linarith), neg_neg]
  · simp [roundPos_zero]
  · rw [if_neg (by linarith), if_pos h.le, neg_neg]

theorem round64_neg (x : ℝ) : round64 (-x) = neg (round64 x) := by
  have := huge_pos
  unfold round64
  rw [roundUnb_neg]
  by_cases h1 : roundUnb x ≤ -huge
  · rw [if_pos h1, if_neg (by linarith), if_pos (by linarith)]; rfl
  · rw [if_neg h1]
    by_cases h2 : huge ≤ roundUnb x
    · rw [if_pos h2, if_pos (by linarith)]; rfl
    · rw [if_neg h2, if_neg (by linarith), if_neg (by linarith)]; rfl

namespace B64

theorem ext {a b : B64} (h : a.x = b.x) : a = b := by
  cases a; cases b; cases h; rfl

theorem ofX_neg (x : X) : ofX (X.neg x) = -ofX x := by
  apply ext
  have h1 : (-ofX x).x = X.neg (ofX x).x := laws.neg _
  rw [h1]
  cases x with
  | fin r => exact round64_neg r
  | _ => rfl

theorem neg_x (a : B64) : (-a).x = X.neg a.x := laws.neg _

theorem lit_one : (1.0 : B64).x = fin 1 := by
  change (X.round round64 (fin (OfScientific.ofScientific 10 true 1))) = _
  rw [round_fin, show (OfScientific.ofScientific 10 true 1 : ℝ) = ((1 : ℕ) : ℝ) by norm_num, round64_rep (rep_nat (by norm_num))]
  norm_num

theorem one_mul' (a : B64) : (1.0 : B64) * a = a := by
  apply ext
  change (ofX (X.mul (1.0 : B64).x a.x)).x = _
  have e : X.mul (fin 1) a.x = a.x := by cases h : a.x <;> simp [X.mul, infSign]
  rw [lit_one, e]
  exact ofX_rep a.rep

theorem neg_one_mul' (a : B64) : (-1.0 : B64) * a = -a := by
  conv_rhs => rw [← one_mul' a]
  change ofX (X.mul (-1.0 : B64).x a.x) = - ofX (X.mul (1.0 : B64).x a.x)
  rw [neg_x, neg_mul', ofX_neg]

theorem neg_zero' : -(0.0 : B64) = 0.0 := by
  apply ext
  rw [neg_x]
  have : (0.0 : B64).x = fin 0 := by
    change (X.round round64 (fin (OfScientific.ofScientific 0 true 1))) = _
    rw [round_fin, show (OfScientific.ofScientific 0 true 1 : ℝ) = ((0 : ℕ) : ℝ) by norm_num, round64_rep (rep_nat (by norm_num))]
    norm_num
  rw [this]
  simp [X.neg]

/-- The change of sign. -/
theorem scaling_sign : Scaling (-1.0 : B64) 1.0 := by
  constructor
  · rw [neg_one_mul', neg_zero']
  · intro x y
    simp only [neg_one_mul']
    change ofX (X.add (-x).x (-y).x) = -ofX (X.add x.x y.x)
    rw [neg_x, neg_x, X.neg_add, ofX_neg]
  · intro x y
    simp only [neg_one_mul']
    change ofX (X.add (-x).x (X.neg (-y).x)) = -ofX (X.add x.x (X.neg y.x))
    rw [neg_x, neg_x, X.neg_add, ofX_neg]
  · intro x; simp only [neg_one_mul']
  · intro x y
    simp only [neg_one_mul']
    change ofX (X.mul x.x (-y).x) = -ofX (X.mul x.x y.x)
    rw [neg_x, mul_neg', ofX_neg]
  · intro x y
    simp only [neg_one_mul']
    change ofX (X.mul (-x).x y.x) = -ofX (X.mul x.x y.x)
    rw [neg_x, neg_mul', ofX_neg]
  · intro x y
    simp only [neg_one_mul']
    change ofX (X.div (-x).x y.x) = -ofX (X.div x.x y.x)
    rw [neg_x, X.neg_div, ofX_neg]
  · intro x y z
    simp only [neg_one_mul']
    change ofX (X.add (X.mul (-x).x y.x) (-z).x) = -ofX (X.add (X.mul x.x y.x) z.x)
    rw [neg_x, neg_x, neg_mul', X.neg_add, ofX_neg]
  · intro x y; simp only [one_mul']
  · intro x y; simp only [one_mul']
  · intro x y; simp only [one_mul']
  · intro x
    simp only [neg_one_mul', one_mul']
    change ofX (absX (-x).x) = ofX (absX x.x)
    rw [neg_x, abs_neg']
  · intro x y
    simp only [neg_one_mul', one_mul']
    change ofX (powX (ofX (X.div (-x).x y.x)).x (fin 2)) = ofX (powX (ofX (X.div x.x y.x)).x (fin 2))
    rw [neg_x, X.neg_div, ofX_neg, neg_x, powX_neg]

/-- The change of sign, as needed for `DormandPrince5`. -/
theorem scaling2_sign : Scaling2 (-1.0 : B64) 1.0 1.0 := by
  have hm (x y : B64) : -x * -y = x * y := by
    change ofX (X.mul (-x).x (-y).x) = ofX (X.mul x.x y.x)
    rw [neg_x, neg_x, neg_mul', mul_neg', neg_neg']
  have hd (x y : B64) : -x / y = -(x / y) := by
    change ofX (X.div (-x).x y.x) = -ofX (X.div x.x y.x)
    rw [neg_x, X.neg_div, ofX_neg]
  refine ⟨scaling_sign, ?_, ?_, ?_, ?_, ?_, ?_, ?_⟩ <;> intros <;> simp only [neg_one_mul', one_mul', hm, hd]

end B64
end Cyphus
