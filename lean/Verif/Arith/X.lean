import Verif.Arith.Real
/-!
# Exact arithmetic with the IEEE-754 special values

`X` consists of the real numbers, two infinities and NaN. Operations on real numbers are exact; on special
values they follow IEEE-754 and the Rust documentation of `f64`. Differences to `f64`: no rounding, no
overflow, one unsigned zero (so `1/0 = +∞`), one NaN (with positive sign).
-/

namespace Cyphus
open Classical

/-- Real numbers, infinities and NaN. -/
inductive X where
  | nan | ninf | fin (r : ℝ) | pinf

namespace X
noncomputable section

def neg : X → X
  | nan => nan | ninf => pinf | fin r => fin (-r) | pinf => ninf

def add : X → X → X
  | nan, _ => nan
  | _, nan => nan
  | fin a, fin b => fin (a + b)
  | pinf, ninf => nan
  | ninf, pinf => nan
  | pinf, _ => pinf
  | _, pinf => pinf
  | ninf, _ => ninf
  | _, ninf => ninf

/-- An infinity with the sign of `r`, NaN for zero. -/
def infSign (r : ℝ) : X := if 0 < r then pinf else if r < 0 then ninf else nan

def mul : X → X → X
  | nan, _ => nan
  | _, nan => nan
  | fin a, fin b => fin (a * b)
  | pinf, fin b => infSign b
  | fin a, pinf => infSign a
  | ninf, fin b => infSign (-b)
  | fin a, ninf => infSign (-a)
  | pinf, pinf => pinf
  | ninf, ninf => pinf
  | pinf, ninf => ninf
  | ninf, pinf => ninf

def div : X → X → X
  | nan, _ => nan
  | _, nan => nan
  | fin a, fin b => if b = 0 then infSign a else fin (a / b)
  | fin _, _ => fin 0
  | pinf, fin b => if b < 0 then ninf else pinf
  | ninf, fin b => if b < 0 then pinf else ninf
  | _, _ => nan

instance : Add X := ⟨add⟩
instance : Neg X := ⟨neg⟩
instance : Sub X := ⟨fun a b => add a (neg b)⟩
instance : Mul X := ⟨mul⟩
instance : Div X := ⟨div⟩
instance : OfScientific X := ⟨fun m s e => fin (OfScientific.ofScientific m s e)⟩

def absX : X → X
  | nan => nan | ninf => pinf | fin r => fin |r| | pinf => pinf

def sqrtX : X → X
  | nan => nan | ninf => nan | fin r => if r < 0 then nan else fin (Real.sqrt r) | pinf => pinf

def ltX : X → X → Bool
  | nan, _ => false
  | _, nan => false
  | fin a, fin b => decide (a < b)
  | ninf, ninf => false
  | ninf, _ => true
  | _, ninf => false
  | pinf, _ => false
  | _, pinf => true

def leX : X → X → Bool
  | nan, _ => false
  | _, nan => false
  | fin a, fin b => decide (a ≤ b)
  | ninf, _ => true
  | _, pinf => true
  | _, ninf => false
  | pinf, _ => false

/-- `f64::max`: if one argument is NaN the other one is returned. -/
def maxX : X → X → X
  | nan, b => b
  | a, nan => a
  | a, b => if leX a b then b else a

/-- `f64::min`: if one argument is NaN the other one is returned. -/
def minX : X → X → X
  | nan, b => b
  | a, nan => a
  | a, b => if leX a b then a else b

/-- Real powers: IEEE `pow` on finite arguments. -/
def powR (a y : ℝ) : X :=
  if y = 0 then fin 1
  else if 0 < a then fin (a ^ y)
  else if a = 0 then (if 0 < y then fin 0 else pinf)
  else if h : ∃ k : ℤ, (k : ℝ) = y then fin (a ^ h.choose) else nan

/-- `f64::powf`, IEEE-754 section 9.2.1: `pow(x, 0) = 1` and `pow(1, y) = 1` even for NaN. -/
def powX (a y : X) : X :=
  if y = fin 0 ∨ a = fin 1 then fin 1 else
  match a, y with
  | nan, _ => nan
  | _, nan => nan
  | fin a, fin y => powR a y
  | fin a, pinf => if |a| < 1 then fin 0 else if |a| = 1 then fin 1 else pinf
  | fin a, ninf => if |a| < 1 then pinf else if |a| = 1 then fin 1 else fin 0
  | pinf, pinf => pinf
  | pinf, ninf => fin 0
  | ninf, pinf => pinf
  | ninf, ninf => fin 0
  | pinf, fin y => if 0 < y then pinf else fin 0
  | ninf, fin y =>
    if 0 < y then (if ∃ k : ℤ, ((2 * k + 1 : ℤ) : ℝ) = y then ninf else pinf) else fin 0

def copysignX : X → X → X
  | a, fin y => if 0 ≤ y then absX a else neg (absX a)
  | a, ninf => neg (absX a)
  | a, _ => absX a

def eqX : X → X → Bool
  | fin a, fin b => decide (a = b)
  | ninf, ninf => true
  | pinf, pinf => true
  | _, _ => false

instance : Fl X where
  abs := absX
  sqrt := sqrtX
  max := maxX
  min := minX
  powf := powX
  powi := fun x k => powX x (fin k)
  copysign := copysignX
  mulAdd a b c := a * b + c
  lt := ltX
  le := leX
  eq := eqX
  ofNat k := fin k
  eps := fin Fl.eps

instance : FlInf X := ⟨pinf⟩

/-! ### Computation on finite values -/

section
variable (a b c : ℝ)
@[simp] theorem add_fin : fin a + fin b = fin (a + b) := rfl
@[simp] theorem neg_fin : -fin a = fin (-a) := rfl
@[simp] theorem sub_fin : fin a - fin b = fin (a - b) := by
  change fin (a + -b) = _; rw [sub_eq_add_neg]
@[simp] theorem mul_fin : fin a * fin b = fin (a * b) := rfl
theorem div_fin {a b : ℝ} (h : b ≠ 0) : fin a / fin b = fin (a / b) := by
  change (if b = 0 then _ else _) = _; rw [if_neg h]
theorem div_fin_zero : fin a / fin 0 = infSign a := by
  change (if (0:ℝ) = 0 then _ else _) = _; rw [if_pos rfl]
theorem sci (m : ℕ) (s : Bool) (e : ℕ) :
    (OfScientific.ofScientific m s e : X) = fin (OfScientific.ofScientific m s e) := rfl
@[simp] theorem abs_fin : Fl.abs (fin a) = fin |a| := rfl
theorem sqrt_fin {a : ℝ} (h : 0 ≤ a) : Fl.sqrt (fin a) = fin (Real.sqrt a) := by
  change (if a < 0 then _ else _) = _; rw [if_neg (not_lt.2 h)]
@[simp] theorem lt_fin : Fl.lt (fin a) (fin b) = decide (a < b) := rfl
@[simp] theorem le_fin : Fl.le (fin a) (fin b) = decide (a ≤ b) := rfl
@[simp] theorem gt_fin : Fl.gt (fin a) (fin b) = decide (b < a) := rfl
@[simp] theorem ge_fin : Fl.ge (fin a) (fin b) = decide (b ≤ a) := rfl
@[simp] theorem eq_fin : Fl.eq (fin a) (fin b) = decide (a = b) := rfl
@[simp] theorem max_fin : Fl.max (fin a) (fin b) = fin (max a b) := by
  change (if decide (a ≤ b) then _ else _) = _
  by_cases h : a ≤ b
  · simp [h]
  · simp [h, max_eq_left (le_of_not_ge h)]
@[simp] theorem min_fin : Fl.min (fin a) (fin b) = fin (min a b) := by
  change (if decide (a ≤ b) then _ else _) = _
  by_cases h : a ≤ b
  · simp [h]
  · simp [h, min_eq_right (le_of_not_ge h)]
@[simp] theorem ofNat_fin (k : ℕ) : (Fl.ofNat k : X) = fin k := rfl
@[simp] theorem eps_fin : (Fl.eps : X) = fin Fl.eps := rfl
@[simp] theorem mulAdd_fin : Fl.mulAdd (fin a) (fin b) (fin c) = fin (a * b + c) := rfl
@[simp] theorem inf_eq : (FlInf.inf : X) = pinf := rfl
theorem copysign_fin : Fl.copysign (fin a) (fin b) = fin (if 0 ≤ b then |a| else -|a|) := by
  change (if 0 ≤ b then fin |a| else fin (-|a|)) = _
  split <;> rfl

theorem powX_fin : powX (fin a) (fin b) = powR a b := by
  unfold powX
  split
  · rename_i h
    simp only [fin.injEq] at h
    obtain rfl | rfl := h
    · simp [powR]
    · simp only [powR]
      split
      · rfl
      · rw [if_pos one_pos]; simp
  · rfl

theorem powf_fin {a : ℝ} (h : 0 < a) (y : ℝ) : Fl.powf (fin a) (fin y) = fin (a ^ y) := by
  change powX (fin a) (fin y) = _
  rw [powX_fin, powR]
  split
  · rename_i hy; rw [hy, Real.rpow_zero]
  · simp [h]

theorem powf_zero {y : ℝ} (h : 0 < y) : Fl.powf (fin 0) (fin y) = fin 0 := by
  change powX (fin 0) (fin y) = _
  rw [powX_fin, powR, if_neg h.ne', if_neg (lt_irrefl _), if_pos rfl, if_pos h]

theorem powf_nonneg {a : ℝ} (h : 0 ≤ a) {y : ℝ} (hy : 0 < y) :
    Fl.powf (fin a) (fin y) = fin (a ^ y) := by
  obtain h | rfl := h.lt_or_eq
  · exact powf_fin h y
  · rw [powf_zero hy, Real.zero_rpow hy.ne']

theorem powi_fin (a : ℝ) (k : ℤ) (h : a ≠ 0 ∨ 0 ≤ k) : Fl.powi (fin a) k = fin (a ^ k) := by
  change powX (fin a) (fin k) = _
  rw [powX_fin, powR]
  split
  · rename_i hk
    have : k = 0 := by exact_mod_cast hk
    simp [this]
  · rename_i hk
    have hk0 : k ≠ 0 := by intro h; exact hk (by simp [h])
    split
    · simp [Real.rpow_intCast]
    · split
      · rename_i ha
        subst ha
        have : 0 < k := lt_of_le_of_ne (h.resolve_left (by simp)) (Ne.symm hk0)
        rw [if_pos (by exact_mod_cast this), zero_zpow _ hk0]
      · have he : ∃ j : ℤ, (j : ℝ) = (k : ℝ) := ⟨k, rfl⟩
        rw [dif_pos he]
        have := he.choose_spec
        have : he.choose = k := by exact_mod_cast this
        rw [this]

theorem powi_two (a : ℝ) : Fl.powi (fin a) 2 = fin (a ^ 2) := by
  rw [powi_fin a 2 (.inr (by norm_num))]; norm_cast
end

@[simp] theorem fin_inj {a b : ℝ} : fin a = fin b ↔ a = b := ⟨fun h => by injection h, congrArg _⟩

theorem lit (r : ℝ) (m : ℕ) (s : Bool) (e : ℕ) (h : (OfScientific.ofScientific m s e : ℝ) = r) :
    (OfScientific.ofScientific m s e : X) = fin r := by rw [sci, h]

/-- A vector of real numbers as a vector of `X`. -/
def fv {n : ℕ} (u : Fin n → ℝ) : Vec n X := fun i => fin (u i)

@[simp] theorem fv_apply {n : ℕ} (u : Fin n → ℝ) (i : Fin n) : fv u i = fin (u i) := rfl

theorem sumLoop_fin {n : ℕ} (a : ℝ) (f : Fin n → ℝ) :
    sumLoop n (fin a) (fun i => fin (f i)) = fin (sumLoop n a f) := by
  unfold sumLoop
  generalize List.finRange n = l
  induction l generalizing a with
  | nil => rfl
  | cons x l ih => simp only [List.foldl_cons, add_fin, ih]

end
end X
end Cyphus
