import Verif.Spec.OrderConditions
import Mathlib.Data.Rat.Cast.CharZero
import Mathlib.Data.Rat.BigOperators
import Mathlib.Tactic.NormNum
import Mathlib.Tactic.FinCases
/-!
# Enumeration of rooted trees and evaluation of order conditions over the rationals
-/

namespace Cyphus.Spec
set_option autoImplicit false

/-- All forests with `m` vertices (`m ≤ fuel`). -/
def forests : ℕ → ℕ → List (List Tree)
  | _, 0 => [[]]
  | 0, _ + 1 => []
  | fuel + 1, m + 1 => (List.range (m + 1)).flatMap fun k =>
      (forests fuel k).flatMap fun l => (forests fuel (m - k)).map fun r => .node l :: r

theorem orders_eq_zero {l : List Tree} (h : Tree.orders l = 0) : l = [] := by
  cases l with
  | nil => rfl
  | cons t l => cases t; simp [Tree.orders, Tree.order] at h

theorem mem_forests (fuel m : ℕ) (l : List Tree) (h : Tree.orders l = m) (hm : m ≤ fuel) :
    l ∈ forests fuel m := by
  induction fuel generalizing m l with
  | zero =>
    obtain rfl : m = 0 := by omega
    rw [orders_eq_zero h]; simp [forests]
  | succ fuel ih =>
    cases m with
    | zero => rw [orders_eq_zero h]; simp [forests]
    | succ m =>
      cases l with
      | nil => simp [Tree.orders] at h
      | cons t r =>
        obtain ⟨l⟩ := t
        simp only [Tree.orders, Tree.order] at h
        simp only [forests, List.mem_flatMap, List.mem_map, List.mem_range]
        exact ⟨Tree.orders l, by omega, l, ih _ l rfl (by omega), r, ih _ r (by omega) (by omega), rfl⟩

/-- All trees with at most `p` vertices. -/
def treesUpTo (p : ℕ) : List Tree := (List.range p).flatMap fun m => (forests p m).map .node

theorem mem_treesUpTo {p : ℕ} {t : Tree} (h : t.order ≤ p) : t ∈ treesUpTo p := by
  obtain ⟨l⟩ := t
  simp only [Tree.order] at h
  simp only [treesUpTo, List.mem_flatMap, List.mem_map, List.mem_range]
  exact ⟨Tree.orders l, by omega, l, mem_forests _ _ _ rfl (by omega), rfl⟩

section
variable {s : ℕ}

mutual
theorem weight_cast (A : Fin s → Fin s → ℚ) (t : Tree) (i : Fin s) :
    Tree.weight (fun i j => (A i j : ℝ)) t i = (Tree.weight A t i : ℚ) := by
  cases t with
  | node l => rw [Tree.weight, Tree.weight, weights_cast]
theorem weights_cast (A : Fin s → Fin s → ℚ) (l : List Tree) (i : Fin s) :
    Tree.weights (fun i j => (A i j : ℝ)) l i = (Tree.weights A l i : ℚ) := by
  cases l with
  | nil => simp [Tree.weights]
  | cons t l =>
    rw [Tree.weights, Tree.weights, weights_cast A l]
    push_cast
    congr 1
    exact Finset.sum_congr rfl fun j _ => by rw [weight_cast A t]
end

theorem orderCondition_cast (A : Fin s → Fin s → ℚ) (b : Fin s → ℚ) (t : Tree) :
    OrderCondition (fun i j => (A i j : ℝ)) (fun i => (b i : ℝ)) t ↔ OrderCondition A b t := by
  unfold OrderCondition
  simp only [weight_cast]
  rw [← Rat.cast_inj (α := ℝ)]
  push_cast
  rfl

instance (A : Fin s → Fin s → ℚ) (b : Fin s → ℚ) (t : Tree) : Decidable (OrderCondition A b t) := by
  unfold OrderCondition; infer_instance

theorem hasOrder_of_list {A : Fin s → Fin s → ℚ} {b : Fin s → ℚ} {p : ℕ}
    (h : ∀ t ∈ treesUpTo p, OrderCondition A b t) :
    HasOrder (fun i j => (A i j : ℝ)) (fun i => (b i : ℝ)) p := fun t ht =>
  (orderCondition_cast A b t).2 (h t (mem_treesUpTo ht))

end
end Cyphus.Spec
