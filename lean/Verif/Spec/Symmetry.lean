import Mathlib.Data.Real.Basic
import Mathlib.Logic.Equiv.Defs
/-!
# Specification: other coordinates for the same problem

Nothing in this file refers to the model of the code.
-/

namespace Cyphus
namespace Spec
set_option autoImplicit false
noncomputable section
variable {n : ℕ}

/-- New coordinates: the components are renumbered and some of them change their sign, the clock is set forward by `c`. -/
structure Coord (n : ℕ) where
  c : ℝ
  perm : Equiv.Perm (Fin n)
  sign : Fin n → ℝ
  unit : ∀ i, sign i = 1 ∨ sign i = -1

/-- The state `u` in the new coordinates. -/
def Coord.vec (S : Coord n) (u : Fin n → ℝ) : Fin n → ℝ := fun i => S.sign i * u (S.perm i)

/-- The matrix `J` in the new coordinates. -/
def Coord.mat (S : Coord n) (J : Fin n → Fin n → ℝ) : Fin n → Fin n → ℝ :=
  fun i j => S.sign i * S.sign j * J (S.perm i) (S.perm j)

/-- `f'` and `jac'` are the right-hand side `f` and the Jacobian `jac` in the new coordinates. -/
structure Coord.Same (S : Coord n) (f f' : ℝ → (Fin n → ℝ) → Fin n → ℝ) (jac jac' : ℝ → (Fin n → ℝ) → Fin n → Fin n → ℝ) :
    Prop where
  rhs : ∀ t u, f' (t + S.c) (S.vec u) = S.vec (f t u)
  jac : ∀ t u, jac' (t + S.c) (S.vec u) = S.mat (jac t u)

end
end Spec
end Cyphus
