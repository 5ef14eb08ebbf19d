import Verif.Proofs.DP5Step
import Verif.Arith.X
import Verif.Spec.Problem
import Verif.Spec.RungeKutta
import Mathlib.Tactic.Ring
import Mathlib.Tactic.FinCases
import Mathlib.Tactic.Linarith
import Mathlib.Tactic.Positivity
/-!
# `DormandPrince5` in exact arithmetic

On finite values the stages computed by the code are those of the published method.
-/

namespace Cyphus
namespace DP5
open X
set_option linter.unusedSectionVars false
set_option autoImplicit false

/-! ### Constants -/

@[simp] theorem C2_fin : (C2 : X) = X.fin C2 := rfl
@[simp] theorem C3_fin : (C3 : X) = X.fin C3 := rfl
@[simp] theorem C4_fin : (C4 : X) = X.fin C4 := rfl
@[simp] theorem C5_fin : (C5 : X) = X.fin C5 := by
  simp only [C5, X.sci]; exact X.div_fin (by norm_num)
@[simp] theorem A21_fin : (A21 : X) = X.fin A21 := rfl
@[simp] theorem A31_fin : (A31 : X) = X.fin A31 := by
  simp only [A31, X.sci]; exact X.div_fin (by norm_num)
@[simp] theorem A32_fin : (A32 : X) = X.fin A32 := by
  simp only [A32, X.sci]; exact X.div_fin (by norm_num)
@[simp] theorem A41_fin : (A41 : X) = X.fin A41 := by
  simp only [A41, X.sci]; exact X.div_fin (by norm_num)
@[simp] theorem A42_fin : (A42 : X) = X.fin A42 := by
  simp only [A42, X.sci, X.neg_fin]; exact X.div_fin (by norm_num)
@[simp] theorem A43_fin : (A43 : X) = X.fin A43 := by
  simp only [A43, X.sci]; exact X.div_fin (by norm_num)
@[simp] theorem A51_fin : (A51 : X) = X.fin A51 := by
  simp only [A51, X.sci]; exact X.div_fin (by norm_num)
@[simp] theorem A52_fin : (A52 : X) = X.fin A52 := by
  simp only [A52, X.sci, X.neg_fin]; exact X.div_fin (by norm_num)
@[simp] theorem A53_fin : (A53 : X) = X.fin A53 := by
  simp only [A53, X.sci]; exact X.div_fin (by norm_num)
@[simp] theorem A54_fin : (A54 : X) = X.fin A54 := by
  simp only [A54, X.sci, X.neg_fin]; exact X.div_fin (by norm_num)
@[simp] theorem A61_fin : (A61 : X) = X.fin A61 := by
  simp only [A61, X.sci]; exact X.div_fin (by norm_num)
@[simp] theorem A62_fin : (A62 : X) = X.fin A62 := by
  simp only [A62, X.sci, X.neg_fin]; exact X.div_fin (by norm_num)
@[simp] theorem A63_fin : (A63 : X) = X.fin A63 := by
  simp only [A63, X.sci]; exact X.div_fin (by norm_num)
@[simp] theorem A64_fin : (A64 : X) = X.fin A64 := by
  simp only [A64, X.sci]; exact X.div_fin (by norm_num)
@[simp] theorem A65_fin : (A65 : X) = X.fin A65 := by
  simp only [A65, X.sci, X.neg_fin]; exact X.div_fin (by norm_num)
@[simp] theorem A71_fin : (A71 : X) = X.fin A71 := by
  simp only [A71, X.sci]; exact X.div_fin (by norm_num)
@[simp] theorem A73_fin : (A73 : X) = X.fin A73 := by
  simp only [A73, X.sci]; exact X.div_fin (by norm_num)
@[simp] theorem A74_fin : (A74 : X) = X.fin A74 := by
  simp only [A74, X.sci]; exact X.div_fin (by norm_num)
@[simp] theorem A75_fin : (A75 : X) = X.fin A75 := by
  simp only [A75, X.sci, X.neg_fin]; exact X.div_fin (by norm_num)
@[simp] theorem A76_fin : (A76 : X) = X.fin A76 := by
  simp only [A76, X.sci]; exact X.div_fin (by norm_num)
@[simp] theorem E1_fin : (E1 : X) = X.fin E1 := by
  simp only [E1, X.sci]; exact X.div_fin (by norm_num)
@[simp] theorem E3_fin : (E3 : X) = X.fin E3 := by
  simp only [E3, X.sci, X.neg_fin]; exact X.div_fin (by norm_num)
@[simp] theorem E4_fin : (E4 : X) = X.fin E4 := by
  simp only [E4, X.sci]; exact X.div_fin (by norm_num)
@[simp] theorem E5_fin : (E5 : X) = X.fin E5 := by
  simp only [E5, X.sci, X.neg_fin]; exact X.div_fin (by norm_num)
@[simp] theorem E6_fin : (E6 : X) = X.fin E6 := by
  simp only [E6, X.sci]; exact X.div_fin (by norm_num)
@[simp] theorem E7_fin : (E7 : X) = X.fin E7 := by
  simp only [E7, X.sci, X.neg_fin]; exact X.div_fin (by norm_num)
@[simp] theorem D1_fin : (D1 : X) = X.fin D1 := by
  simp only [D1, X.sci, X.neg_fin]; exact X.div_fin (by norm_num)
@[simp] theorem D3_fin : (D3 : X) = X.fin D3 := by
  simp only [D3, X.sci]; exact X.div_fin (by norm_num)
@[simp] theorem D4_fin : (D4 : X) = X.fin D4 := by
  simp only [D4, X.sci, X.neg_fin]; exact X.div_fin (by norm_num)
@[simp] theorem D5_fin : (D5 : X) = X.fin D5 := by
  simp only [D5, X.sci]; exact X.div_fin (by norm_num)
@[simp] theorem D6_fin : (D6 : X) = X.fin D6 := by
  simp only [D6, X.sci, X.neg_fin]; exact X.div_fin (by norm_num)
@[simp] theorem D7_fin : (D7 : X) = X.fin D7 := by
  simp only [D7, X.sci]; exact X.div_fin (by norm_num)


/-! Their values in `ℝ`. -/

theorem C2_val : (C2 : ℝ) = 1 / 5 := by norm_num [C2]
theorem C3_val : (C3 : ℝ) = 3 / 10 := by norm_num [C3]
theorem C4_val : (C4 : ℝ) = 4 / 5 := by norm_num [C4]
theorem C5_val : (C5 : ℝ) = 8 / 9 := by norm_num [C5]
theorem A21_val : (A21 : ℝ) = 1 / 5 := by norm_num [A21]
theorem A31_val : (A31 : ℝ) = 3 / 40 := by norm_num [A31]
theorem A32_val : (A32 : ℝ) = 9 / 40 := by norm_num [A32]
theorem A41_val : (A41 : ℝ) = 44 / 45 := by norm_num [A41]
theorem A42_val : (A42 : ℝ) = -56 / 15 := by norm_num [A42]
theorem A43_val : (A43 : ℝ) = 32 / 9 := by norm_num [A43]
theorem A51_val : (A51 : ℝ) = 19372 / 6561 := by norm_num [A51]
theorem A52_val : (A52 : ℝ) = -25360 / 2187 := by norm_num [A52]
theorem A53_val : (A53 : ℝ) = 64448 / 6561 := by norm_num [A53]
theorem A54_val : (A54 : ℝ) = -212 / 729 := by norm_num [A54]
theorem A61_val : (A61 : ℝ) = 9017 / 3168 := by norm_num [A61]
theorem A62_val : (A62 : ℝ) = -355 / 33 := by norm_num [A62]
theorem A63_val : (A63 : ℝ) = 46732 / 5247 := by norm_num [A63]
theorem A64_val : (A64 : ℝ) = 49 / 176 := by norm_num [A64]
theorem A65_val : (A65 : ℝ) = -5103 / 18656 := by norm_num [A65]
theorem A71_val : (A71 : ℝ) = 35 / 384 := by norm_num [A71]
theorem A73_val : (A73 : ℝ) = 500 / 1113 := by norm_num [A73]
theorem A74_val : (A74 : ℝ) = 125 / 192 := by norm_num [A74]
theorem A75_val : (A75 : ℝ) = -2187 / 6784 := by norm_num [A75]
theorem A76_val : (A76 : ℝ) = 11 / 84 := by norm_num [A76]
theorem E1_val : (E1 : ℝ) = 71 / 57600 := by norm_num [E1]
theorem E3_val : (E3 : ℝ) = -71 / 16695 := by norm_num [E3]
theorem E4_val : (E4 : ℝ) = 71 / 1920 := by norm_num [E4]
theorem E5_val : (E5 : ℝ) = -17253 / 339200 := by norm_num [E5]
theorem E6_val : (E6 : ℝ) = 22 / 525 := by norm_num [E6]
theorem E7_val : (E7 : ℝ) = -1 / 40 := by norm_num [E7]
theorem D1_val : (D1 : ℝ) = -12715105075 / 11282082432 := by norm_num [D1]
theorem D3_val : (D3 : ℝ) = 87487479700 / 32700410799 := by norm_num [D3]
theorem D4_val : (D4 : ℝ) = -10690763975 / 1880347072 := by norm_num [D4]
theorem D5_val : (D5 : ℝ) = 701980252875 / 199316789632 := by norm_num [D5]
theorem D6_val : (D6 : ℝ) = -1453857185 / 822651844 := by norm_num [D6]
theorem D7_val : (D7 : ℝ) = 69997945 / 29380423 := by norm_num [D7]

noncomputable section
variable {n : ℕ} {P : Type}

section stages
variable (f : ℝ → (Fin n → ℝ) → Fin n → ℝ) (t : ℝ) (u : Fin n → ℝ) (h : ℝ)

def K1 : Fin n → ℝ := f t u
def K2 : Fin n → ℝ := f (t + C2 * h) fun i => u i + h * A21 * K1 f t u i
def K3 : Fin n → ℝ := f (t + C3 * h) fun i => u i + h * (A31 * K1 f t u i + A32 * K2 f t u h i)
def K4 : Fin n → ℝ := f (t + C4 * h) fun i =>
  u i + h * (A41 * K1 f t u i + A42 * K2 f t u h i + A43 * K3 f t u h i)
def K5 : Fin n → ℝ := f (t + C5 * h) fun i =>
  u i + h * (A51 * K1 f t u i + A52 * K2 f t u h i + A53 * K3 f t u h i + A54 * K4 f t u h i)
def K6arg : Fin n → ℝ := fun i =>
  u i + h * (A61 * K1 f t u i + A62 * K2 f t u h i + A63 * K3 f t u h i + A64 * K4 f t u h i
    + A65 * K5 f t u h i)
def K6 : Fin n → ℝ := f (t + h) (K6arg f t u h)
/-- The result of a step. -/
def unewR : Fin n → ℝ := fun i =>
  u i + h * (A71 * K1 f t u i + A73 * K3 f t u h i + A74 * K4 f t u h i + A75 * K5 f t u h i
    + A76 * K6 f t u h i)
def K7 : Fin n → ℝ := f (t + h) (unewR f t u h)
/-- The error vector of a step. -/
def uerrR : Fin n → ℝ := fun i =>
  h * (E1 * K1 f t u i + E3 * K3 f t u h i + E4 * K4 f t u h i + E5 * K5 f t u h i
    + E6 * K6 f t u h i + E7 * K7 f t u h i)

/-- The stage derivatives are those of the published tableau. -/
theorem isStages : Spec.IsStages Spec.dopri5 f t u h
    ![K1 f t u, K2 f t u h, K3 f t u h, K4 f t u h, K5 f t u h, K6 f t u h, K7 f t u h] := by
  intro i
  fin_cases i
  all_goals simp only [Spec.dopri5, Fin.sum_univ_seven, Fin.zero_eta, Fin.mk_one, Fin.reduceFinMk,
    Matrix.cons_val]
  · simp [K1]
  · rw [K2]; congr 1
    · rw [C2_val]
    · funext m; rw [A21_val]; ring
  · rw [K3]; congr 1
    · rw [C3_val]
    · funext m; rw [A31_val, A32_val]; ring
  · rw [K4]; congr 1
    · rw [C4_val]
    · funext m; rw [A41_val, A42_val, A43_val]; ring
  · rw [K5]; congr 1
    · rw [C5_val]
    · funext m; rw [A51_val, A52_val, A53_val, A54_val]; ring
  · rw [K6]; congr 1
    · norm_num
    · funext m; rw [K6arg, A61_val, A62_val, A63_val, A64_val, A65_val]; ring
  · rw [K7]; congr 1
    · norm_num
    · funext m; rw [unewR, A71_val, A73_val, A74_val, A75_val, A76_val]; ring

/-- The stages of an explicit method are unique. -/
theorem stages_unique {k : Fin 7 → Fin n → ℝ} (hk : Spec.IsStages Spec.dopri5 f t u h k) :
    k = ![K1 f t u, K2 f t u h, K3 f t u h, K4 f t u h, K5 f t u h, K6 f t u h, K7 f t u h] := by
  have hs := isStages f t u h
  generalize ![K1 f t u, K2 f t u h, K3 f t u h, K4 f t u h, K5 f t u h, K6 f t u h, K7 f t u h] = k'
    at hs
  have e0 : k 0 = k' 0 := by
    rw [hk 0, hs 0]; simp [Spec.dopri5, Fin.sum_univ_seven]
  have e1 : k 1 = k' 1 := by
    rw [hk 1, hs 1]; simp [Spec.dopri5, Fin.sum_univ_seven, e0]
  have e2 : k 2 = k' 2 := by
    rw [hk 2, hs 2]; simp [Spec.dopri5, Fin.sum_univ_seven, e0, e1]
  have e3 : k 3 = k' 3 := by
    rw [hk 3, hs 3]; simp [Spec.dopri5, Fin.sum_univ_seven, e0, e1, e2]
  have e4 : k 4 = k' 4 := by
    rw [hk 4, hs 4]; simp [Spec.dopri5, Fin.sum_univ_seven, e0, e1, e2, e3]
  have e5 : k 5 = k' 5 := by
    rw [hk 5, hs 5]; simp [Spec.dopri5, Fin.sum_univ_seven, e0, e1, e2, e3, e4]
  have e6 : k 6 = k' 6 := by
    rw [hk 6, hs 6]; simp [Spec.dopri5, Fin.sum_univ_seven, e0, e2, e3, e4, e5]
  funext i
  fin_cases i
  exacts [e0, e1, e2, e3, e4, e5, e6]

theorem isStep_iff (u' : Fin n → ℝ) : Spec.IsStep Spec.dopri5 f t u h u' ↔ u' = unewR f t u h := by
  have key : ∀ m, unewR f t u h m = u m + h * ∑ j, Spec.dopri5.b j *
      (![K1 f t u, K2 f t u h, K3 f t u h, K4 f t u h, K5 f t u h, K6 f t u h, K7 f t u h] :
        Fin 7 → Fin n → ℝ) j m := by
    intro m
    simp only [Spec.dopri5, Fin.sum_univ_seven, Matrix.cons_val, unewR, A71_val, A73_val, A74_val, A75_val, A76_val]
    ring
  constructor
  · rintro ⟨k, hk, hu⟩
    rw [stages_unique f t u h hk] at hu
    funext m
    rw [hu, key]
  · rintro rfl
    exact ⟨_, isStages f t u h, key⟩

theorem isErr_iff (e : Fin n → ℝ) : Spec.IsErr Spec.dopri5 f t u h e ↔ e = uerrR f t u h := by
  have key : ∀ m, uerrR f t u h m = h * ∑ j, (Spec.dopri5.b j - Spec.dopri5.bhat j) *
      (![K1 f t u, K2 f t u h, K3 f t u h, K4 f t u h, K5 f t u h, K6 f t u h, K7 f t u h] :
        Fin 7 → Fin n → ℝ) j m := by
    intro m
    simp only [Spec.dopri5, Fin.sum_univ_seven, Matrix.cons_val, uerrR, E1_val, E3_val, E4_val, E5_val, E6_val, E7_val]
    ring
  constructor
  · rintro ⟨k, hk, hu⟩
    rw [stages_unique f t u h hk] at hu
    funext m
    rw [hu, key]
  · rintro rfl
    exact ⟨_, isStages f t u h, key⟩

end stages

/-- The state holds finite numbers, and the stored derivative is the one at the current point. -/
structure Num (s : St X n P) (f : ℝ → (Fin n → ℝ) → Fin n → ℝ) (t0 : ℝ) (u0 : Fin n → ℝ) (h0 : ℝ) :
    Prop where
  t : s.t = fin t0
  u : s.u = fv u0
  dt : s.dt = fin h0
  du : s.cache.du = fv (f t0 u0)
  rhs : Lifts s.dudt s.params f

section
variable {s : St X n P} {f : ℝ → (Fin n → ℝ) → Fin n → ℝ} {t : ℝ} {u : Fin n → ℝ} {h : ℝ}

theorem fvfun (u : Fin n → ℝ) : (fun i => fin (u i)) = fv u := rfl

theorem Num.stages (H : Num s f t u h) :
    (compute_stages s).cache.k2 = fv (K2 f t u h) ∧ (compute_stages s).cache.k3 = fv (K3 f t u h) ∧
    (compute_stages s).cache.k4 = fv (K4 f t u h) ∧ (compute_stages s).cache.k5 = fv (K5 f t u h) ∧
    (compute_stages s).cache.k6 = fv (K6 f t u h) ∧
    (compute_stages s).cache.ustiff = fv (K6arg f t u h) ∧
    (compute_stages s).cache.unew = fv (unewR f t u h) ∧
    (compute_stages s).cache.dunew = fv (K7 f t u h) ∧
    (compute_stages s).cache.uerr = fv (uerrR f t u h) := by
  have L : ∀ (buf : Vec n X) t (u : Fin n → ℝ), s.dudt s.params buf (fun i => fin (u i)) (fin t) =
    fv (f t u) := H.rhs
  simp only [compute_stages, H.t, H.u, H.dt, H.du, fv_apply, C2_fin, C3_fin, C4_fin, C5_fin, A21_fin,
    A31_fin, A32_fin, A41_fin, A42_fin, A43_fin, A51_fin, A52_fin, A53_fin, A54_fin, A61_fin, A62_fin,
    A63_fin, A64_fin, A65_fin, A71_fin, A73_fin, A74_fin, A75_fin, A76_fin, E1_fin, E3_fin, E4_fin,
    E5_fin, E6_fin, E7_fin, mul_fin, add_fin, L]
  exact ⟨rfl, rfl, rfl, rfl, rfl, rfl, rfl, rfl, rfl⟩

/-- The trace of an attempt. -/
theorem Num.trace (H : Num s f t u h) : ∃ v2 v3 v4 v5 : Fin n → ℝ, (compute_stages s).trace = s.trace ++
    [Call.rhs (fin (t + C2 * h)) (fv v2), Call.rhs (fin (t + C3 * h)) (fv v3),
     Call.rhs (fin (t + C4 * h)) (fv v4), Call.rhs (fin (t + C5 * h)) (fv v5),
     Call.rhs (fin (t + h)) (fv (K6arg f t u h)), Call.rhs (fin (t + h)) (fv (unewR f t u h))] := by
  have L : ∀ (buf : Vec n X) t (u : Fin n → ℝ), s.dudt s.params buf (fun i => fin (u i)) (fin t) =
    fv (f t u) := H.rhs
  simp only [compute_stages, H.t, H.u, H.dt, H.du, fv_apply, C2_fin, C3_fin, C4_fin, C5_fin, A21_fin,
    A31_fin, A32_fin, A41_fin, A42_fin, A43_fin, A51_fin, A52_fin, A53_fin, A54_fin, A61_fin, A62_fin,
    A63_fin, A64_fin, A65_fin, A71_fin, A73_fin, A74_fin, A75_fin, A76_fin, E1_fin, E3_fin, E4_fin,
    E5_fin, E6_fin, E7_fin, mul_fin, add_fin, L]
  exact ⟨_, _, _, _, rfl⟩

/-- The error of an attempt as a real number. -/
def errR (abstol reltol : ℝ) (f : ℝ → (Fin n → ℝ) → Fin n → ℝ) (t : ℝ) (u : Fin n → ℝ) (h : ℝ) : ℝ :=
  Spec.errNorm abstol reltol u (unewR f t u h) (uerrR f t u h)

theorem Num.err (H : Num s f t u h) {a r : ℝ} (T : Tol s.opts a r) (hn : n ≠ 0) :
    errOf s = fin (errR a r f t u h) := by
  obtain ⟨-, -, -, -, -, -, h1, -, h2⟩ := H.stages
  have ho : (compute_stages s).opts = s.opts := rfl
  have hu : (compute_stages s).u = s.u := rfl
  unfold errOf error
  rw [h1, h2, ho, T.abstol, T.reltol, hu, H.u]
  have e : (fun i => let sk := fin a + fin r * Fl.max (Fl.abs (fv u i)) (Fl.abs (fv (unewR f t u h) i))
      let sqr := fv (uerrR f t u h) i / sk; sqr * sqr) = fun i =>
      fin ((uerrR f t u h i / (a + r * max |u i| |unewR f t u h i|)) ^ 2) := by
    funext i
    have : a + r * max |u i| |unewR f t u h i| ≠ 0 := by
      have := T.abs_pos
      have := mul_nonneg T.rel_nonneg (le_max_of_le_left (b := |u i|) (c := |unewR f t u h i|) (abs_nonneg (u i)))
      positivity
    simp only [fv_apply, abs_fin, max_fin, mul_fin, add_fin]
    rw [div_fin this, mul_fin, sq]
  rw [e, X.sci, sumLoop_fin, sumLoop_real, ofNat_fin]
  dsimp only
  rw [div_fin (by exact_mod_cast hn), sqrt_fin]
  · unfold errR Spec.errNorm; norm_num
  · apply div_nonneg
    · norm_num
      exact Finset.sum_nonneg fun i _ => sq_nonneg _
    · positivity

theorem errR_nonneg (a r : ℝ) : 0 ≤ errR a r f t u h := Real.sqrt_nonneg _

end

/-! ### The controller -/

section
variable {o : Opts X} {sf fl fr be : ℝ} {mx : Option ℝ} (C : Ctl o sf fl fr be mx)
include C

theorem Ctl.fac11 (e : ℝ) : fac11 o (fin e) = powX (fin e) (fin (expo be)) := by
  unfold DP5.fac11
  rw [C.beta, X.sci, X.sci, powf_nonneg C.beta_nonneg (by norm_num), sub_fin]
  rfl

theorem Ctl.fac11_pos {e : ℝ} (he : 0 < e) : DP5.fac11 o (fin e) = fin (e ^ expo be) := by
  rw [C.fac11, powX_fin, powR]
  split
  · rename_i h; simp [h]
  · simp [he]

theorem inv_fin {x : ℝ} (h : 0 < x) : (1.0 : X) / fin x = fin (1 / x) := by
  rw [X.sci, div_fin h.ne']; norm_num

omit C in
/-- Whatever the third value is, clipping gives a number in the interval. -/
theorem clip_mem {a b : ℝ} (w : X) : ∃ q, Fl.max (fin b) (Fl.min (fin a) w) = fin q ∧ b ≤ q ∧
    q ≤ max a b := by
  cases w with
  | nan => exact ⟨max b a, by change Fl.max (fin b) (fin a) = _; simp, le_max_left _ _, by rw [max_comm]⟩
  | ninf => exact ⟨b, by change Fl.max (fin b) ninf = _; rfl, le_rfl, le_max_right _ _⟩
  | fin r =>
    refine ⟨max b (min a r), by simp, le_max_left _ _, ?_⟩
    exact max_le (le_max_right _ _) ((min_le_left _ _).trans (le_max_left _ _))
  | pinf => exact ⟨max b a, by change Fl.max (fin b) (fin a) = _; simp, le_max_left _ _, by rw [max_comm]⟩

/-- The ratio of the old and the new step is finite, positive and within its limits, whatever the error
and the stored previous error are. -/
theorem Ctl.stepFac (facold e : X) : ∃ q, stepFac o facold e = fin q ∧ 1 / fr ≤ q ∧
    q ≤ max (1 / fl) (1 / fr) := by
  unfold DP5.stepFac
  rw [C.facl, C.facr]
  simp only [inv_fin C C.facl_pos, inv_fin C C.facr_pos]
  exact clip_mem _

end

section
variable {s : St X n P} {f : ℝ → (Fin n → ℝ) → Fin n → ℝ} {t : ℝ} {u : Fin n → ℝ} {h : ℝ}
  {sf fl fr be : ℝ} {mx : Option ℝ}

/-- The step size after a rejected attempt. -/
def shrink (sf fl be e : ℝ) (h : ℝ) : ℝ := h / min (1 / fl) (e ^ expo be / sf)

theorem Num.retry (H : Num s f t u h) (C : Ctl s.opts sf fl fr be mx) {e : ℝ} (he : errOf s = fin e)
    (h1 : Fl.le (errOf s) 1.0 = false) : Num (retry s) f t u (shrink sf fl be e h) := by
  rw [he, X.sci, le_fin] at h1
  have hlt : 1 < e := by norm_num at h1; exact h1
  refine ⟨by simp [H.t], by simp [H.u], ?_, by simp [H.du], by simpa using H.rhs⟩
  rw [retry_dt, C.facl, C.safe, inv_fin C C.facl_pos, he, C.fac11_pos (by linarith),
    div_fin C.safe_pos.ne', min_fin, H.dt, div_fin]
  · rfl
  · have := C.facl_pos
    have := C.safe_pos
    have : 0 < e ^ expo be := Real.rpow_pos_of_pos (by linarith) _
    positivity

/-- The step size after an accepted attempt: `q` is the quotient of the old and the proposed step, `d` the
direction, `rej` tells whether an attempt was rejected before. -/
def nextH (mx : Option ℝ) (d : ℝ) (rej : Bool) (h q : ℝ) : ℝ :=
  let x := match mx with
    | none => h / q
    | some m => if m < |h / q| then d * m else h / q
  if rej then d * min |x| |h| else x

/-- An accepted attempt moves to the Runge-Kutta result. -/
theorem Num.accepted (H : Num s f t u h) (C : Ctl s.opts sf fl fr be mx) {d : ℝ} (hd : s.tdir = fin d) :
    ∃ q, 1 / fr ≤ q ∧ q ≤ max (1 / fl) (1 / fr) ∧
      Num (accepted s) f (t + h) (unewR f t u h) (nextH mx d s.cache.reject h q) := by
  obtain ⟨-, -, -, -, -, -, hu, hdu, -⟩ := H.stages
  obtain ⟨q, hq, hq1, hq2⟩ := C.stepFac s.cache.facold (errOf s)
  have hq0 : 0 < q := lt_of_lt_of_le (by have := C.facr_pos; positivity) hq1
  refine ⟨q, hq1, hq2, ?_, ?_, ?_, ?_, ?_⟩
  · rw [accepted_t, H.t, H.dt, add_fin]
  · rw [accepted_u, hu]
  · rw [accepted_dt, hq, H.dt, div_fin hq0.ne', hd, C.dtmax]
    unfold nextH
    cases mx with
    | none =>
      simp only [abs_fin, show Fl.gt (fin (|h / q|)) pinf = false from rfl, Bool.false_eq_true, if_false,
        min_fin, mul_fin]
      split <;> rfl
    | some m =>
      simp only [abs_fin, gt_fin, mul_fin]
      by_cases hc : m < |h / q| <;> simp only [hc, decide_true, decide_false, if_true, abs_fin, min_fin,
        mul_fin, Bool.false_eq_true, if_false] <;> split <;> rfl
  · rw [accepted_du, hdu]; rfl
  · rw [accepted_dudt, accepted_params]; exact H.rhs

theorem Num.clampLast (H : Num s f t u h) {d tf : ℝ} (hd : s.tdir = fin d) (hf : s.tfinal = fin tf) :
    Num (clampLast s) f t u (if (t + 1.01 * h - tf) * d > 0 then tf - t else h) ∧
    ((clampLast s).cache.last = if (t + 1.01 * h - tf) * d > 0 then true else s.cache.last) := by
  have e : (0.0 : ℝ) = 0 := by norm_num
  have e2 : Fl.gt ((s.t + 1.01 * s.dt - s.tfinal) * s.tdir) 0.0 =
      decide ((t + 1.01 * h - tf) * d > 0) := by
    rw [H.t, H.dt, hd, hf, X.sci, X.sci]
    simp only [mul_fin, add_fin, sub_fin, gt_fin, e]
  unfold DP5.clampLast
  rw [e2]
  by_cases hc : (t + 1.01 * h - tf) * d > 0
  · simp only [hc, decide_true, if_true]
    exact ⟨⟨H.t, H.u, by simp [hf, H.t], H.du, H.rhs⟩, trivial⟩
  · simp only [hc, decide_false, Bool.false_eq_true, if_false]
    exact ⟨⟨H.t, H.u, H.dt, H.du, H.rhs⟩, trivial⟩

theorem Num.finishStep (H : Num s f t u h) : Num (finishStep s) f t u h :=
  ⟨by simp [H.t], by simp [H.u], by simp [H.dt], by simp [H.du], by simpa using H.rhs⟩

end
end
end DP5
end Cyphus
