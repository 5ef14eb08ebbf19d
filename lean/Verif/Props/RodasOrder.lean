import Verif.Spec.Rosenbrock
import Verif.Rodas.Constants
/-!
# C89: the constants prepared for `Rodas` are those of a method of order four
-/

namespace Cyphus
set_option autoImplicit false
set_option linter.unusedSectionVars false
namespace Rodas

/-- The matrix of the coefficients `A` of the code; row six is row five with a one added, as usual for stiffly accurate methods. -/
def tableA : Matrix (Fin 6) (Fin 6) ℚ := ![![0, 0, 0, 0, 0, 0], ![A21, 0, 0, 0, 0, 0], ![A31, A32, 0, 0, 0, 0], ![A41, A42, A43, 0, 0, 0],
  ![A51, A52, A53, A54, 0, 0], ![A51, A52, A53, A54, 1, 0]]

/-- The matrix of the coefficients `C` of the code. -/
def tableC : Matrix (Fin 6) (Fin 6) ℚ := ![![0, 0, 0, 0, 0, 0], ![C21, 0, 0, 0, 0, 0], ![C31, C32, 0, 0, 0, 0], ![C41, C42, C43, 0, 0, 0],
  ![C51, C52, C53, C54, 0, 0], ![C61, C62, C63, C64, C65, 0]]

/-- The new value is the argument of stage six plus the last correction, which is also the error estimate. -/
def weights : Fin 6 → ℚ := ![A51, A52, A53, A54, 1, 1]

/-- The embedded result is the argument of stage six. -/
def embedded : Fin 6 → ℚ := ![A51, A52, A53, A54, 1, 0]

/-- The nodes `C2 C3 C4` of the code; stages five and six are at the end of the step. -/
def nodes : Fin 6 → ℚ := ![0, C2, C3, C4, 1, 1]

/-- The coefficients `D1 D2 D3 D4` of the time derivative. -/
def timeDer : Fin 6 → ℚ := ![D1, D2, D3, D4, 0, 0]

/-- The matrix `gamma`. -/
def gam : Matrix (Fin 6) (Fin 6) ℚ := ![![1 / 4, 0, 0, 0, 0, 0],
  ![-3543 / 10000, 1 / 4, 0, 0, 0, 0],
  ![-10688200421454044031 / 80000000000000000000, -412719831418383 / 32000000000000000, 1 / 4, 0, 0, 0],
  ![3053698346012934256368052521637631 / 2000000000000000000000000000000000, -426925031000365825897200776817 / 800000000000000000000000000000, -127939288425601 / 100000000000000, 1 / 4, 0, 0],
  ![69811909517850187766081164401311895835691212587 / 10000000000000000000000000000000000000000000000, -8371720388024466204774921619926784246619909 / 4000000000000000000000000000000000000000000, -2935033831516376345668936277 / 500000000000000000000000000, 14636136165077 / 20000000000000, 1 / 4, 0],
  ![-41603789883618725360632917579585651370406872793496180164518849 / 20000000000000000000000000000000000000000000000000000000000000, 4766098845413466454398300511486590135320651505565331790543 / 8000000000000000000000000000000000000000000000000000000000, 1701617798267261896788206472478989451788479 / 1000000000000000000000000000000000000000000, -3540580793435217093676566079 / 40000000000000000000000000000, -3029409119417027 / 8000000000000000, 1 / 4]]

/-- The method. -/
def method : Spec.Rosenbrock 6 := ⟨tableA * gam, gam, fun j => ∑ i, weights i * gam i j⟩

theorem method_transformed : method.Transformed GAMMA tableA tableC weights := by
  refine ⟨?_, rfl, rfl⟩
  decide +kernel

theorem unique {M : Spec.Rosenbrock 6} (h : M.Transformed GAMMA tableA tableC weights) : M = method := by
  have e : M.gamma = gam := by
    rw [← Matrix.inv_eq_right_inv h.gamma, Matrix.inv_eq_right_inv method_transformed.gamma]
    rfl
  obtain ⟨a, g, b⟩ := M
  have h1 := h.alpha
  have h2 := h.b
  simp only at e h1 h2
  subst e
  rw [h1, h2]
  rfl

end Rodas

/-- **C89** The constants of the code determine exactly one Rosenbrock method; its nodes and the coefficients of the time derivative
are those of the code, its weights have order four, the embedded ones order three but not four, all up to `10 ^ -14`. -/
theorem C89_rodas_order : ∃ M : Spec.Rosenbrock 6, (∀ M', M'.Transformed Rodas.GAMMA Rodas.tableA Rodas.tableC Rodas.weights ↔ M' = M) ∧
    (∀ i, |M.alphaSum i - Rodas.nodes i| ≤ 1e-14) ∧ (∀ i, |M.gammaSum i - Rodas.timeDer i| ≤ 1e-14) ∧
    M.OrderFour M.b 1e-14 ∧ M.OrderThree (fun j => ∑ i, Rodas.embedded i * M.gamma i j) 1e-14 ∧
    ¬ M.OrderFour (fun j => ∑ i, Rodas.embedded i * M.gamma i j) 0.1 := by
  refine ⟨Rodas.method, fun M' => ⟨Rodas.unique, fun h => h ▸ Rodas.method_transformed⟩, ?_, ?_, ⟨⟨?_, ?_, ?_, ?_⟩, ?_, ?_, ?_, ?_⟩, ⟨?_, ?_, ?_, ?_⟩,
    fun h => absurd h.cube ?_⟩
  all_goals decide +kernel

end Cyphus
