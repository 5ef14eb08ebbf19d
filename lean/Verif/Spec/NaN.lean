import Verif.Arith
/-!
# Specification vocabulary: values that behave like NaN
-/

namespace Cyphus
set_option autoImplicit false

/-- `N` is a set of values that behave like NaN: they propagate through `+ * /` and `sqrt`, are not `<=`
anything, and `0/0` is one of them. For IEEE-754 doubles `N` is the set of NaNs. -/
structure NaNLaws {F : Type} [Add F] [Mul F] [Div F] [OfScientific F] [Fl F] (N : F → Prop) : Prop where
  add_left : ∀ {a} b, N a → N (a + b)
  add_right : ∀ a {b}, N b → N (a + b)
  mul_left : ∀ {a} b, N a → N (a * b)
  mul_right : ∀ a {b}, N b → N (a * b)
  div_left : ∀ {a} b, N a → N (a / b)
  sqrt : ∀ {a}, N a → N (Fl.sqrt a)
  le : ∀ {a} b, N a → Fl.le a b = false
  zero_div_zero : N ((0.0 : F) / Fl.ofNat 0)

end Cyphus
