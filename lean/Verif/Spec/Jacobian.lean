import Verif.Spec.Problem
/-!
# Specification vocabulary: Jacobians
-/

namespace Cyphus
open X
set_option autoImplicit false

section any
variable {F : Type} {n : Nat} {P : Type}
  [Add F] [Sub F] [Mul F] [Div F] [Neg F] [OfScientific F] [Fl F]

/-- `u` with `d` added to component `i`. -/
def Spec.bump (u : Vec n F) (i : Fin n) (d : F) : Vec n F := fun j => if j = i then u i + d else u j

/-- The right-hand side overwrites its output. -/
def Spec.Overwrites (f : Rhs F n P) : Prop := ∀ p b b' u t, f p b u t = f p b' u t

/-- The increment used for a component of value `x`. -/
def Spec.fdIncrement (x : F) : F := Fl.sqrt (Fl.eps * Fl.max x 1e-5)

end any

noncomputable section
variable {n : ℕ} {P : Type}

/-- The matrix of difference quotients of `f t` at `u`: column `i` uses the increment
`sqrt (eps * max (u i) 1e-5)` of component `i`. -/
def Spec.fdJacobian (f : ℝ → (Fin n → ℝ) → Fin n → ℝ) (t : ℝ) (u : Fin n → ℝ) (j i : Fin n) : ℝ :=
  (f t (Spec.bump u i (Spec.fdIncrement (u i))) j - f t u j) / Spec.fdIncrement (u i)

namespace Radau

/-- The builder `b` describes the problem `u' = f t u`, `u t0 = u0`, for `Radau5`: its right-hand side computes
`f`, its initial state is `u0`, and `jac` is what the user's Jacobian computes or, if there is none, the matrix
of difference quotients of `f`. -/
structure RealProblem (b : Builder X n P) (f : ℝ → (_root_.Fin n → ℝ) → _root_.Fin n → ℝ)
    (jac : ℝ → (_root_.Fin n → ℝ) → _root_.Fin n → _root_.Fin n → ℝ) (u0 : _root_.Fin n → ℝ) : Prop where
  rhs : Lifts b.dudt b.params f
  u : b.u = fv u0
  jac : match b.dfdu with
    | some g => ∀ buf u t, g b.params buf (fv u) (fin t) = fun i j => fin (jac t u i j)
    | none => jac = Spec.fdJacobian f

end Radau
end
end Cyphus
