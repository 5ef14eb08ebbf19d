import Verif.Arith.X
/-!
# Specification vocabulary: floating-point arithmetic with rounding

The value of a floating-point number is a real number, an infinity or NaN, that is, an element of `X`. The laws say
that the basic operations are the exact ones followed by rounding, and that rounding is monotone and leaves numbers
of the format unchanged. IEEE-754 doubles satisfy them (`Verif/Arith/Binary64.lean` proves it for the format without
signed zeros).
-/

namespace Cyphus
open X
set_option autoImplicit false

/-- Rounding of a value: infinities and NaN stay. -/
def X.round (rnd : ℝ → X) : X → X
  | nan => nan
  | ninf => ninf
  | fin r => rnd r
  | pinf => pinf

/-- `val` gives the value of a number of the format, `rnd` rounds a real number to (the value of) a number of the
format, possibly to an infinity. -/
structure FloatLaws {F : Type} [Add F] [Sub F] [Mul F] [Div F] [Neg F] [OfScientific F] [Fl F]
    (val : F → X) (rnd : ℝ → X) : Prop where
  /-- rounding is monotone (in particular never NaN) … -/
  rnd_mono : ∀ {x y}, x ≤ y → Fl.le (rnd x) (rnd y) = true
  /-- … leaves the numbers of the format unchanged … -/
  rnd_val : ∀ {a x}, val a = fin x → rnd x = fin x
  /-- … which comprise the integers up to `2 ^ 53` -/
  rnd_nat : ∀ k : ℕ, k ≤ 2 ^ 53 → rnd k = fin k
  /-- the difference of two different numbers does not round to zero (gradual underflow) -/
  rnd_pos : ∀ {a b x y}, val a = fin x → val b = fin y → x < y → Fl.lt (fin 0) (rnd (y - x)) = true
  /-- decimal literals are rounded -/
  lit : ∀ m s e, val (OfScientific.ofScientific m s e) = rnd (OfScientific.ofScientific m s e)
  ofNat : ∀ k, val (Fl.ofNat k) = rnd k
  /-- the basic operations are the exact ones, rounded (division by zero depends on the sign of zero, which `val`
  does not show) -/
  add : ∀ a b, val (a + b) = (val a + val b).round rnd
  sub : ∀ a b, val (a - b) = (val a - val b).round rnd
  mul : ∀ a b, val (a * b) = (val a * val b).round rnd
  div : ∀ a b, val b ≠ fin 0 → val (a / b) = (val a / val b).round rnd
  neg : ∀ a, val (-a) = -val a
  /-- these are exact; `min` and `max` ignore NaN -/
  abs : ∀ a, val (Fl.abs a) = Fl.abs (val a)
  max : ∀ a b, val (Fl.max a b) = Fl.max (val a) (val b)
  min : ∀ a b, val (Fl.min a b) = Fl.min (val a) (val b)
  lt : ∀ a b, Fl.lt a b = Fl.lt (val a) (val b)
  le : ∀ a b, Fl.le a b = Fl.le (val a) (val b)
  copysign : ∀ a b, Fl.lt (fin 0) (val b) = true → val (Fl.copysign a b) = Fl.abs (val a)
  /-- about the library function `pow` only this is assumed: the power of a number that is not less than 1 (it may be
  NaN) is not less than 1 if the exponent is not negative, … -/
  pow_ge : ∀ {a b}, Fl.lt (val a) (fin 1) = false → Fl.le (fin 0) (val b) = true →
    Fl.lt (val (Fl.powf a b)) (fin 1) = false
  /-- … and between 0 and 1 if the exponent is not positive -/
  pow_le : ∀ {a b} {x y : ℝ}, val a = fin x → 1 ≤ x → val b = fin y → y ≤ 0 →
    ∃ z, val (Fl.powf a b) = fin z ∧ 0 ≤ z ∧ z ≤ 1

end Cyphus
