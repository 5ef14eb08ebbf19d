import Verif.Proofs.Trees
import Verif.Proofs.DP5X
/-!
# C18: the order of the Dormand-Prince pair

`codeTableau` collects the constants of `src/dorm_prince/dp5/constants.rs` as used in `stages.rs`.
-/

namespace Cyphus
namespace DP5
open Spec
set_option autoImplicit false

/-- The constants of the code as a tableau: the entries of `A`, the weights of the propagated result, the
weights minus the error coefficients, and the nodes (stages.rs:7-104). -/
noncomputable def codeTableau : Tableau 7 where
  A := ![![0, 0, 0, 0, 0, 0, 0],
         ![A21, 0, 0, 0, 0, 0, 0],
         ![A31, A32, 0, 0, 0, 0, 0],
         ![A41, A42, A43, 0, 0, 0, 0],
         ![A51, A52, A53, A54, 0, 0, 0],
         ![A61, A62, A63, A64, A65, 0, 0],
         ![A71, 0, A73, A74, A75, A76, 0]]
  b := ![A71, 0, A73, A74, A75, A76, 0]
  bhat := ![A71 - E1, 0, A73 - E3, A74 - E4, A75 - E5, A76 - E6, 0 - E7]
  c := ![0, C2, C3, C4, C5, 1, 1]

/-- The same numbers as rationals. -/
def A_rat : Fin 7 → Fin 7 → ℚ :=
  ![![0, 0, 0, 0, 0, 0, 0],
    ![1/5, 0, 0, 0, 0, 0, 0],
    ![3/40, 9/40, 0, 0, 0, 0, 0],
    ![44/45, -56/15, 32/9, 0, 0, 0, 0],
    ![19372/6561, -25360/2187, 64448/6561, -212/729, 0, 0, 0],
    ![9017/3168, -355/33, 46732/5247, 49/176, -5103/18656, 0, 0],
    ![35/384, 0, 500/1113, 125/192, -2187/6784, 11/84, 0]]
def b_rat : Fin 7 → ℚ := ![35/384, 0, 500/1113, 125/192, -2187/6784, 11/84, 0]
def bhat_rat : Fin 7 → ℚ := ![5179/57600, 0, 7571/16695, 393/640, -92097/339200, 187/2100, 1/40]
def c_rat : Fin 7 → ℚ := ![0, 1/5, 3/10, 4/5, 8/9, 1, 1]

theorem codeTableau_A : codeTableau.A = fun i j => (A_rat i j : ℝ) := by
  funext i j
  fin_cases i <;> fin_cases j <;>
    simp [codeTableau, A_rat, A21_val, A31_val, A32_val, A41_val, A42_val, A43_val, A51_val, A52_val,
      A53_val, A54_val, A61_val, A62_val, A63_val, A64_val, A65_val, A71_val, A73_val, A74_val, A75_val,
      A76_val]

theorem codeTableau_b : codeTableau.b = fun i => (b_rat i : ℝ) := by
  funext i
  fin_cases i <;> simp [codeTableau, b_rat, A71_val, A73_val, A74_val, A75_val, A76_val]

theorem codeTableau_bhat : codeTableau.bhat = fun i => (bhat_rat i : ℝ) := by
  funext i
  fin_cases i <;> norm_num [codeTableau, bhat_rat, A71_val, A73_val, A74_val, A75_val, A76_val, E1_val,
    E3_val, E4_val, E5_val, E6_val, E7_val]

theorem codeTableau_c : codeTableau.c = fun i => (c_rat i : ℝ) := by
  funext i
  fin_cases i <;> simp [codeTableau, c_rat, C2_val, C3_val, C4_val, C5_val]

theorem codeTableau_eq : codeTableau = dopri5 := by
  have e1 : codeTableau.A = dopri5.A := by
    rw [codeTableau_A]; funext i j; fin_cases i <;> fin_cases j <;> simp [dopri5, A_rat]
  have e2 : codeTableau.b = dopri5.b := by
    rw [codeTableau_b]; funext i; fin_cases i <;> simp [dopri5, b_rat]
  have e3 : codeTableau.bhat = dopri5.bhat := by
    rw [codeTableau_bhat]; funext i; fin_cases i <;> simp [dopri5, bhat_rat]
  have e4 : codeTableau.c = dopri5.c := by
    rw [codeTableau_c]; funext i; fin_cases i <;> simp [dopri5, c_rat]
  revert e1 e2 e3 e4
  generalize codeTableau = x
  generalize dopri5 = y
  cases x; cases y
  simp only
  rintro rfl rfl rfl rfl
  rfl

end DP5

open Spec DP5
set_option autoImplicit false

/-- C18. The nodes are the row sums. -/
theorem C18_row_sums (i : Fin 7) : codeTableau.c i = ∑ j, codeTableau.A i j := by
  rw [codeTableau_c, codeTableau_A]
  have : c_rat i = ∑ j, A_rat i j := by revert i; decide +kernel
  dsimp only
  rw [this]; push_cast; rfl

/-- C18. The propagated weights satisfy every order condition up to order five. -/
theorem C18_order_five : HasOrder codeTableau.A codeTableau.b 5 := by
  rw [codeTableau_A, codeTableau_b]
  exact hasOrder_of_list (by decide +kernel)

/-- C18. ... but not up to order six. -/
theorem C18_not_order_six : ¬ HasOrder codeTableau.A codeTableau.b 6 := by
  rw [codeTableau_A, codeTableau_b]
  intro h
  have := (orderCondition_cast _ _ _).1
    (h (.node [.node [.node [.node [.node [.node []]]]]]) (by simp [Tree.order, Tree.orders]))
  revert this
  decide +kernel

/-- C18. The embedded weights (those of the propagated result minus the error coefficients) satisfy every
order condition up to order four. -/
theorem C18_embedded_order_four : HasOrder codeTableau.A codeTableau.bhat 4 := by
  rw [codeTableau_A, codeTableau_bhat]
  exact hasOrder_of_list (by decide +kernel)

/-- C18. ... but not up to order five: the error estimate does not vanish to higher order. -/
theorem C18_embedded_not_order_five : ¬ HasOrder codeTableau.A codeTableau.bhat 5 := by
  rw [codeTableau_A, codeTableau_bhat]
  intro h
  have := (orderCondition_cast _ _ _).1
    (h (.node [.node [.node [.node [.node []]]]]) (by simp [Tree.order, Tree.orders]))
  revert this
  decide +kernel

/-- C18. The published pair is the one in the code. -/
theorem C18_published : codeTableau = dopri5 := codeTableau_eq

/-- C18. First same as last: the last stage argument is the propagated result. -/
theorem C18_fsal (j : Fin 7) : codeTableau.A 6 j = codeTableau.b j := by
  fin_cases j <;> rfl

/-- There are 23 ordered trees up to order five. -/
example : (treesUpTo 5).length = 23 := by decide
end Cyphus
