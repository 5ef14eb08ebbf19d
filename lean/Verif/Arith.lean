/-!
# The number interface of the model

The Rust code computes with `f64`. The model is generic in a number type `F` which carries the
operations the code uses, **with no laws attached**. `+ - * /`, unary minus and decimal literals come
from the core classes `Add Sub Mul Div Neg OfScientific`; everything else is in `Fl`.

A theorem proved for all `F` with these classes therefore holds for IEEE-754 doubles whatever rounding,
NaN or infinities occur.
-/

namespace Cyphus

/-- The `f64` methods and comparisons used in `/repo/src` beyond `+ - * /`, negation and literals. -/
class Fl (F : Type) where
  /-- `f64::abs` -/
  abs : F → F
  /-- `f64::sqrt` -/
  sqrt : F → F
  /-- `f64::max` -/
  max : F → F → F
  /-- `f64::min` -/
  min : F → F → F
  /-- `f64::powf` -/
  powf : F → F → F
  /-- `f64::powi` -/
  powi : F → Int → F
  /-- `a.copysign(b)` -/
  copysign : F → F → F
  /-- `a.mul_add(b, c)`, i.e. `a * b + c` with a single rounding -/
  mulAdd : F → F → F → F
  /-- `a < b` -/
  lt : F → F → Bool
  /-- `a <= b` -/
  le : F → F → Bool
  /-- `a == b` -/
  eq : F → F → Bool
  /-- `n as f64` for an unsigned integer `n` -/
  ofNat : Nat → F
  /-- `f64::EPSILON` -/
  eps : F

/-- Number types with an infinity (`f64::INFINITY`, used by `src/ode/options.rs:54`). -/
class FlInf (F : Type) where
  inf : F

/-- `a > b` is `b < a`. -/
def Fl.gt {F : Type} [Fl F] (a b : F) : Bool := Fl.lt b a
/-- `a >= b` is `b <= a`. -/
def Fl.ge {F : Type} [Fl F] (a b : F) : Bool := Fl.le b a

/-- `Array1<f64>` of a system of dimension `n`. -/
abbrev Vec (n : Nat) (F : Type) := Fin n → F
/-- `Array2<f64>` of shape `(n, n)`. -/
abbrev Mat (n : Nat) (F : Type) := Fin n → Fin n → F

/-- Model of an accumulation loop `for i in 0..n { acc += f(i) }` started with `init`. -/
def sumLoop {F : Type} [Add F] (n : Nat) (init : F) (f : Fin n → F) : F :=
  (List.finRange n).foldl (fun acc i => acc + f i) init

/-- The outcome of a computation that may panic or run for ever: `ok` is a normal return, `panic` a Rust
panic, `timeout` means the fuel given to a loop of the model was exhausted. -/
inductive Res (α : Type) where
  | ok (a : α)
  | panic
  | timeout

namespace Res

/-- Sequencing: panics and timeouts propagate. -/
def bind {α β : Type} : Res α → (α → Res β) → Res β
  | ok a, f => f a
  | panic, _ => panic
  | timeout, _ => timeout

@[simp] theorem bind_ok {α β : Type} (a : α) (f : α → Res β) : (ok a).bind f = f a := rfl
@[simp] theorem bind_panic {α β : Type} (f : α → Res β) : (panic : Res α).bind f = panic := rfl
@[simp] theorem bind_timeout {α β : Type} (f : α → Res β) : (timeout : Res α).bind f = timeout := rfl

theorem bind_eq_ok {α β : Type} {r : Res α} {f : α → Res β} {b : β} :
    r.bind f = ok b ↔ ∃ a, r = ok a ∧ f a = ok b := by
  cases r <;> simp

end Res
end Cyphus
