import Verif.Ode.Run
/-!
# Specification: functions which agree at some calls
-/

namespace Cyphus
set_option autoImplicit false
variable {F : Type} {n : Nat} {P : Type}

/-- The right-hand sides `f` and `g` and the user Jacobians `jf` and `jg` agree at the calls in the list `L`, whatever the output
buffer contains; and either both problems have a user Jacobian or none has. -/
structure Spec.SameAt (p : P) (f g : Rhs F n P) (jf jg : Option (JacFn F n P)) (L : List (Call F n)) : Prop where
  rhs : ∀ t u, Call.rhs t u ∈ L → ∀ buf, g p buf u t = f p buf u t
  user : jf.isSome = jg.isSome
  jac : ∀ a b, jf = some a → jg = some b → ∀ t u, Call.jacU t u ∈ L → ∀ buf, b p buf u t = a p buf u t

end Cyphus
