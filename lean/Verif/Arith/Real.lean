import Verif.Arith
import Mathlib.Analysis.SpecialFunctions.Pow.Real
/-!
# The real numbers as arithmetic of the model

Exact arithmetic. `x / 0 = 0` is Mathlib's convention, not IEEE's: theorems over `ℝ` are only stated where
no division by zero occurs or where a hypothesis excludes it; where it does occur see `Verif.Arith.X`.
-/

namespace Cyphus

noncomputable instance : Fl ℝ where
  abs x := |x|
  sqrt := Real.sqrt
  max := max
  min := min
  powf := fun x y => x ^ y
  powi := fun x k => x ^ k
  copysign x y := if 0 ≤ y then |x| else -|x|
  mulAdd x y z := x * y + z
  lt x y := decide (x < y)
  le x y := decide (x ≤ y)
  eq x y := decide (x = y)
  ofNat k := k
  eps := 2 ^ (-52 : ℤ)

namespace RealFl
variable (x y z : ℝ)
@[simp] theorem abs_eq : Fl.abs x = |x| := rfl
@[simp] theorem sqrt_eq : Fl.sqrt x = Real.sqrt x := rfl
@[simp] theorem max_eq : Fl.max x y = max x y := rfl
@[simp] theorem min_eq : Fl.min x y = min x y := rfl
@[simp] theorem powf_eq : Fl.powf x y = x ^ y := rfl
@[simp] theorem powi_eq (k : ℤ) : Fl.powi x k = x ^ k := rfl
theorem copysign_eq : Fl.copysign x y = if 0 ≤ y then |x| else -|x| := rfl
@[simp] theorem mulAdd_eq : Fl.mulAdd x y z = x * y + z := rfl
@[simp] theorem lt_eq : Fl.lt x y = decide (x < y) := rfl
@[simp] theorem le_eq : Fl.le x y = decide (x ≤ y) := rfl
@[simp] theorem gt_eq : Fl.gt x y = decide (y < x) := rfl
@[simp] theorem ge_eq : Fl.ge x y = decide (y ≤ x) := rfl
@[simp] theorem eq_eq : Fl.eq x y = decide (x = y) := rfl
@[simp] theorem ofNat_eq (k : ℕ) : Fl.ofNat k = (k : ℝ) := rfl
theorem eps_eq : (Fl.eps : ℝ) = 2 ^ (-52 : ℤ) := rfl
theorem eps_pos : (0 : ℝ) < Fl.eps := by rw [eps_eq]; positivity
end RealFl

theorem sumLoop_real {n : ℕ} (a : ℝ) (f : Fin n → ℝ) : sumLoop n a f = a + ∑ i, f i := by
  unfold sumLoop
  rw [← List.sum_ofFn, List.ofFn_eq_map]
  generalize List.finRange n = l
  induction l generalizing a with
  | nil => simp
  | cons x l ih => simp [ih, add_assoc]

end Cyphus
