import Verif.Spec.RungeKutta
/-!
# Specification: Butcher's order conditions

Nothing in this file refers to the model of the code.

A rooted tree is a root with a list of subtrees. (Trees which differ only in the order of the subtrees are
counted several times; this is harmless because the conditions for them are the same.) The `17` unordered
rooted trees with at most five vertices are represented by `23` ordered ones.
-/

namespace Cyphus.Spec

/-- Rooted trees. -/
inductive Tree
  | node : List Tree → Tree

mutual
/-- Number of vertices. -/
def Tree.order : Tree → ℕ
  | .node l => 1 + Tree.orders l
/-- Number of vertices of a forest. -/
def Tree.orders : List Tree → ℕ
  | [] => 0
  | t :: l => t.order + Tree.orders l
end

mutual
/-- The density `γ`: the product over all vertices of the number of vertices of the subtree above it. -/
def Tree.gamma : Tree → ℕ
  | .node l => (1 + Tree.orders l) * Tree.gammas l
/-- The product of the densities of a forest. -/
def Tree.gammas : List Tree → ℕ
  | [] => 1
  | t :: l => t.gamma * Tree.gammas l
end

section
variable {K : Type} [Field K] {s : ℕ}

mutual
/-- The elementary weight of a tree at stage `i`: a product over the branches of the root of
`∑ j, A i j * (weight of the branch at stage j)`. -/
def Tree.weight (A : Fin s → Fin s → K) : Tree → Fin s → K
  | .node l, i => Tree.weights A l i
/-- The product over a list of branches. -/
def Tree.weights (A : Fin s → Fin s → K) : List Tree → Fin s → K
  | [], _ => 1
  | t :: l, i => (∑ j, A i j * Tree.weight A t j) * Tree.weights A l i
end

/-- The order condition of a tree for the weights `b`. -/
def OrderCondition (A : Fin s → Fin s → K) (b : Fin s → K) (t : Tree) : Prop :=
  ∑ i, b i * t.weight A i = 1 / (t.gamma : K)

/-- A Runge-Kutta method `(A, b)` satisfies all order conditions up to order `p`. -/
def HasOrder (A : Fin s → Fin s → K) (b : Fin s → K) (p : ℕ) : Prop :=
  ∀ t : Tree, t.order ≤ p → OrderCondition A b t

end

end Cyphus.Spec
