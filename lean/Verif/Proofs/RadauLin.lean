import Verif.Proofs.LuLift
import Verif.Proofs.Radau
import Verif.Props.LinearSolve
import Mathlib.LinearAlgebra.FiniteDimensional.Basic
import Mathlib.LinearAlgebra.FiniteDimensional.Lemmas
/-!
# The linear systems of `Radau5` in exact arithmetic
-/

namespace Cyphus

namespace Linalg
set_option autoImplicit false
set_option linter.unusedSectionVars false
variable {F : Type} [Add F] [Sub F] [Mul F] [Div F] [Neg F] [OfScientific F] [Fl F]

/-- `sol` only reads the entries of the matrix with indices below `n`. -/
theorem sol_congr {n : ℕ} (hn : 1 ≤ n) {a a' : NMat F} (h : ∀ i j, i < n → j < n → a i j = a' i j) (b : NVec F)
    (ip : ℕ → ℤ) : sol n a b ip = sol n a' b ip := by
  have e1 : forRange 0 (n - 1) b (fwdStep a ip n) = forRange 0 (n - 1) b (fwdStep a' ip n) := by
    refine forRange_congr (fun b k _ hk => ?_) b
    unfold fwdStep
    exact forRange_congr (fun b i _ hi => by rw [h i k hi (by omega)]) _
  have e2 : ∀ b, forRange 0 (n - 1) b (backStep a n) = forRange 0 (n - 1) b (backStep a' n) := by
    refine forRange_congr (fun b k _ hk => ?_)
    unfold backStep
    dsimp only
    rw [h (n - k - 2 + 1) (n - k - 2 + 1) (by omega) (by omega)]
    exact forRange_congr (fun b i _ hi => by rw [h i (n - k - 2 + 1) (by omega) (by omega)]) _
  unfold sol
  dsimp only
  rw [e1, e2, h 0 0 (by omega) (by omega)]

theorem divDiagc_congr {ar ai ar' ai' : NMat F} {k : ℕ} (hr : ar k k = ar' k k) (hi : ai k k = ai' k k)
    (b : NVec F × NVec F) : divDiagc ar ai b k = divDiagc ar' ai' b k := by
  unfold divDiagc
  dsimp only
  rw [hr, hi]

/-- `solc` only reads the entries of the matrix with indices below `n`. -/
theorem solc_congr {n : ℕ} (hn : 1 ≤ n) {ar ai ar' ai' : NMat F} (hr : ∀ i j, i < n → j < n → ar i j = ar' i j)
    (hi : ∀ i j, i < n → j < n → ai i j = ai' i j) (b : NVec F × NVec F)
    (ip : ℕ → ℤ) : solc n ar ai b ip = solc n ar' ai' b ip := by
  have e1 : forRange 0 (n - 1) b (fwdStepc ar ai ip n) = forRange 0 (n - 1) b (fwdStepc ar' ai' ip n) := by
    refine forRange_congr (fun b k _ hk => ?_) b
    unfold fwdStepc
    exact forRange_congr (fun b i _ h => by dsimp only; rw [hr i k h (by omega), hi i k h (by omega)]) _
  have e2 : ∀ b, forRange 0 (n - 1) b (fun b k => backStepc ar ai (n - k - 2 + 1) (n - k - 2 + 1) b) =
      forRange 0 (n - 1) b (fun b k => backStepc ar' ai' (n - k - 2 + 1) (n - k - 2 + 1) b) := by
    refine forRange_congr (fun b k _ hk => ?_)
    unfold backStepc
    dsimp only
    rw [divDiagc_congr (hr _ _ (by omega) (by omega)) (hi _ _ (by omega) (by omega))]
    exact forRange_congr (fun b i _ h => by
      rw [hr i (n - k - 2 + 1) (by omega) (by omega), hi i (n - k - 2 + 1) (by omega) (by omega)]) _
  unfold solc
  dsimp only
  rw [e1, e2, divDiagc_congr (hr 0 0 (by omega) (by omega)) (hi 0 0 (by omega) (by omega))]

end Linalg

namespace Radau
open X Linalg
set_option autoImplicit false
set_option linter.unusedSectionVars false
noncomputable section
variable {n : ℕ} {P : Type}

/-- A real matrix. -/
def fmat (J : _root_.Fin n → _root_.Fin n → ℝ) : Mat n X := fun i j => X.fin (J i j)

theorem extV_fv (b : _root_.Fin n → ℝ) : extV (fv b) = fw (extV b) := by
  funext i
  simp only [extV, fw]
  split <;> rfl

theorem extM_fmat (J : _root_.Fin n → _root_.Fin n → ℝ) : extM (fmat J) = fm (extM J) := by
  funext i j
  simp only [extM, fm]
  split <;> rfl

theorem resV_fw (b : NVec ℝ) : (resV (fw b) : Vec n X) = fv (resV b) := rfl

theorem ext_res {F : Type} [OfScientific F] (a : NMat F) (i j : ℕ) (hi : i < n) (hj : j < n) :
    extM (resM a : Mat n F) i j = a i j := by
  simp only [extM, resM]
  rw [dif_pos ⟨hi, hj⟩]

theorem shift_fmat (lam : ℝ) (J : _root_.Fin n → _root_.Fin n → ℝ) :
    (fun i j => X.fin lam * eye i j - fmat J i j : Mat n X) = fmat fun i j => (if i = j then lam else 0) - J i j := by
  funext i j
  simp only [eye, fmat]
  split
  · rw [show (1.0 : X) = X.fin 1.0 from rfl, mul_fin, sub_fin]; norm_num
  · rw [show (0.0 : X) = X.fin 0.0 from rfl, mul_fin, sub_fin]; norm_num

theorem scale_fmat (lam : ℝ) :
    (fun i j => X.fin lam * eye i j : Mat n X) = fmat fun i j => if i = j then lam else 0 := by
  funext i j
  simp only [eye, fmat]
  split
  · rw [show (1.0 : X) = X.fin 1.0 from rfl, mul_fin]; norm_num
  · rw [show (0.0 : X) = X.fin 0.0 from rfl, mul_fin]; norm_num

/-- The first column of `lam - J` is not zero, unless the system has size one. -/
def ColOk (J : _root_.Fin n → _root_.Fin n → ℝ) (lam : ℝ) : Prop :=
  ∀ h : 2 ≤ n, ∃ i : _root_.Fin n, J i ⟨0, by omega⟩ ≠ if i.val = 0 then lam else 0

/-- The real system. -/
theorem real_solver {J : _root_.Fin n → _root_.Fin n → ℝ} {lam : ℝ} {ip : ℕ → ℤ} {r : LuSt X}
    (hd : dec n (extM fun i j => X.fin lam * eye i j - fmat J i j) ip = .ok (r, 0)) (hc : ColOk J lam)
    (b : _root_.Fin n → ℝ) :
    ∃ x : _root_.Fin n → ℝ, (resV (sol n (extM (resM r.a : Mat n X)) (extV (fv b)) r.ip) : Vec n X) = fv x ∧
      ∀ i, lam * x i - ∑ j, J i j * x j = b i := by
  have hn : 1 ≤ n := by
    by_contra h
    obtain rfl : n = 0 := by omega
    simp [dec] at hd
  obtain ⟨st, c, h1, h2⟩ := C35_real_code hn
    (extM (fun i j => (if i = j then lam else 0) - J i j : Mat n ℝ)) ip
  rw [shift_fmat, extM_fmat, dec_fm h1] at hd
  obtain ⟨rfl, rfl⟩ := Prod.mk.inj (Res.ok.inj hd)
  set A : NMat ℝ := extM (fun i j => (if i = j then lam else 0) - J i j : Mat n ℝ) with hA
  have hA' : ∀ i j : _root_.Fin n, A i j = (if i = j then lam else 0) - J i j := by
    intro i j
    rw [hA]
    simp only [extM]
    rw [dif_pos ⟨i.2, j.2⟩]
  have hf : ¬ Spec.FirstColumnZero n A := by
    intro hz
    rcases h2.1 rfl with h3 | ⟨h3, -⟩
    · exact h3 (Matrix.det_eq_zero_of_column_eq_zero (⟨0, by omega⟩ : _root_.Fin n) (fun i => hz i i.2))
    · obtain ⟨i, hi⟩ := hc h3
      have e := hz i i.2
      rw [show A i 0 = A i (⟨0, by omega⟩ : _root_.Fin n) from rfl, hA'] at e
      apply hi
      have : (i = (⟨0, by omega⟩ : _root_.Fin n)) ↔ i.val = 0 := by rw [Fin.ext_iff]
      simp only [this] at e
      linarith
  have hs := C34_real_solve hn h1 hf (extV b)
  have hdg : ∀ i, i < n → st.a i i ≠ 0 := by
    rw [dec_eq hn] at h1
    obtain ⟨-, h⟩ := decK_out pivotOk hn (HiOk.full n) (A := A) (fun j i _ h1 h2 => by omega) ip
    rw [Res.ok.inj h1] at h
    exact (h rfl hf).diag
  refine ⟨resV (sol n st.a (extV b) st.ip), ?_, fun i => ?_⟩
  · have : sol n (extM (resM (lst st).a : Mat n X)) (extV (fv b)) (lst st).ip =
        sol n (fm st.a) (extV (fv b)) st.ip := sol_congr hn (fun i j hi hj => ext_res _ i j hi hj) _ _
    rw [this, extV_fv, sol_fw hn hdg, resV_fw]
  · have := hs i i.2
    rw [← Fin.sum_univ_eq_sum_range (fun j => A i j * sol n st.a (extV b) st.ip j) n] at this
    simp only [hA', sub_mul, ite_mul, zero_mul, Finset.sum_sub_distrib, Finset.sum_ite_eq, Finset.mem_univ, if_true] at this
    rw [show extV b i = b i by simp only [extV]; rw [dif_pos i.2]] at this
    exact this

/-- The complex system. -/
theorem complex_solver {J : _root_.Fin n → _root_.Fin n → ℝ} {al be : ℝ} (hb : be ≠ 0) {ip : ℕ → ℤ} {r : LucSt X}
    (hd : decc n (extM fun i j => X.fin al * eye i j - fmat J i j) (extM fun i j : _root_.Fin n => X.fin be * eye i j) ip
      = .ok (r, 0)) (b c : _root_.Fin n → ℝ) :
    ∃ x y : _root_.Fin n → ℝ,
      (resV (solc n (extM (resM r.ar : Mat n X)) (extM (resM r.ai : Mat n X)) (extV (fv b), extV (fv c)) r.ip).1 : Vec n X)
        = fv x ∧
      (resV (solc n (extM (resM r.ar : Mat n X)) (extM (resM r.ai : Mat n X)) (extV (fv b), extV (fv c)) r.ip).2 : Vec n X)
        = fv y ∧
      (∀ i, al * x i - be * y i - ∑ j, J i j * x j = b i) ∧ ∀ i, al * y i + be * x i - ∑ j, J i j * y j = c i := by
  have hn : 1 ≤ n := by
    by_contra h
    obtain rfl : n = 0 := by omega
    simp [decc] at hd
  rw [shift_fmat, scale_fmat, extM_fmat, extM_fmat] at hd
  set A : NMat ℝ := extM (fun i j => (if i = j then al else 0) - J i j : Mat n ℝ) with hA
  set B : NMat ℝ := extM (fun i j => if i = j then be else 0 : Mat n ℝ) with hB
  obtain ⟨⟨st, c'⟩, h1, h2⟩ := decc_eq hn A B ip
  rw [decc_fm h1] at hd
  obtain ⟨rfl, rfl⟩ := Prod.mk.inj (Res.ok.inj hd)
  have hA' : ∀ i j : _root_.Fin n, A i j = (if i = j then al else 0) - J i j := by
    intro i j
    rw [hA]
    simp only [extM]
    rw [dif_pos ⟨i.2, j.2⟩]
  have hB' : ∀ i j : _root_.Fin n, B i j = if i = j then be else 0 := by
    intro i j
    rw [hB]
    simp only [extM]
    rw [dif_pos ⟨i.2, j.2⟩]
  have hf : ¬ Spec.FirstColumnZero n (Spec.complexMatrix A B) := by
    intro hz
    have e := congrArg Complex.im (hz 0 (by omega))
    rw [show (Spec.complexMatrix A B 0 0).im = B (⟨0, by omega⟩ : _root_.Fin n) (⟨0, by omega⟩ : _root_.Fin n) from rfl,
      hB'] at e
    simp at e
    exact hb e
  have hs := C37_complex_solve hn h1 hf (extV b, extV c)
  obtain ⟨-, h⟩ := decK_out pivotCOk hn (HiOk.full n) (A := cj (A, B)) (fun j i _ h1 h2 => by omega) ip
  rw [← h2] at h
  have hdg : ∀ i, i < n → st.ar i i * st.ar i i + st.ai i i * st.ai i i ≠ 0 := by
    intro i hi h0
    have := (h rfl hf).diag i hi
    apply this
    have e1 : st.ar i i = 0 := by nlinarith [mul_self_nonneg (st.ar i i), mul_self_nonneg (st.ai i i)]
    have e2 : st.ai i i = 0 := by nlinarith [mul_self_nonneg (st.ar i i), mul_self_nonneg (st.ai i i)]
    exact Complex.ext e1 e2
  have key : solc n (extM (resM (lsc st).ar : Mat n X)) (extM (resM (lsc st).ai : Mat n X)) (extV (fv b), extV (fv c))
      (lsc st).ip = fwp (solc n st.ar st.ai (extV b, extV c) st.ip) := by
    rw [solc_congr hn (fun i j hi hj => ext_res (lsc st).ar i j hi hj) (fun i j hi hj => ext_res (lsc st).ai i j hi hj),
      extV_fv, extV_fv]
    exact solc_fw hn hdg (extV b, extV c) st.ip
  refine ⟨resV (solc n st.ar st.ai (extV b, extV c) st.ip).1, resV (solc n st.ar st.ai (extV b, extV c) st.ip).2,
    by rw [key]; rfl, by rw [key]; rfl, fun i => ?_, fun i => ?_⟩
  all_goals
    have := hs i i.2
    rw [← Fin.sum_univ_eq_sum_range (fun j => Spec.complexMatrix A B i j *
      Spec.complexVector (solc n st.ar st.ai (extV b, extV c) st.ip) j) n] at this
  · have := congrArg Complex.re this
    simp only [Complex.re_sum, Complex.mul_re, Spec.complexMatrix, Spec.complexVector, hA', hB', sub_mul, ite_mul,
      zero_mul, Finset.sum_sub_distrib, Finset.sum_ite_eq, Finset.mem_univ, if_true] at this
    rw [show extV b i = b i by simp only [extV]; rw [dif_pos i.2]] at this
    simp only [resV]
    linarith
  · have := congrArg Complex.im this
    simp only [Complex.im_sum, Complex.mul_im, Spec.complexMatrix, Spec.complexVector, hA', hB', sub_mul, ite_mul,
      zero_mul, Finset.sum_sub_distrib, Finset.sum_add_distrib, Finset.sum_ite_eq, Finset.mem_univ, if_true] at this
    rw [show extV c i = c i by simp only [extV]; rw [dif_pos i.2]] at this
    simp only [resV]
    linarith

/-- An invariant subspace contains the solutions for right-hand sides in it. -/
theorem mem_of_solves {E : Type} [AddCommGroup E] [Module ℝ E] [FiniteDimensional ℝ E] (L : E →ₗ[ℝ] E)
    (hL : Function.Surjective L) (V : Submodule ℝ E) (hV : ∀ v ∈ V, L v ∈ V) {x : E} (hx : L x ∈ V) : x ∈ V := by
  have hi : Function.Injective L := LinearMap.injective_iff_surjective.2 hL
  have hr : Function.Injective (L.restrict hV) := by
    intro a b h
    exact Subtype.ext (hi (congrArg Subtype.val h))
  obtain ⟨y, hy⟩ := LinearMap.injective_iff_surjective.1 hr ⟨L x, hx⟩
  have := hi (congrArg Subtype.val hy)
  rw [← this]; exact y.2

/-- `J v`. -/
def mv (J : _root_.Fin n → _root_.Fin n → ℝ) (v : _root_.Fin n → ℝ) : _root_.Fin n → ℝ := fun i => ∑ j, J i j * v j

theorem mem_real {J : _root_.Fin n → _root_.Fin n → ℝ} {V : Submodule ℝ (_root_.Fin n → ℝ)} (hV : ∀ v ∈ V, mv J v ∈ V)
    {lam : ℝ} (hs : ∀ b : _root_.Fin n → ℝ, ∃ x : _root_.Fin n → ℝ, ∀ i, lam * x i - ∑ j, J i j * x j = b i)
    {x b : _root_.Fin n → ℝ} (hx : ∀ i, lam * x i - ∑ j, J i j * x j = b i) (hb : b ∈ V) : x ∈ V := by
  let L : (_root_.Fin n → ℝ) →ₗ[ℝ] (_root_.Fin n → ℝ) := lam • LinearMap.id - Matrix.toLin' (Matrix.of J)
  have hL : ∀ x i, L x i = lam * x i - ∑ j, J i j * x j := by
    intro x i
    simp [L, Matrix.toLin'_apply, Matrix.mulVec, dotProduct]
  refine mem_of_solves L (fun b => ?_) V (fun v hv => ?_) (x := x) ?_
  · obtain ⟨x, hx⟩ := hs b
    exact ⟨x, funext fun i => (hL x i).trans (hx i)⟩
  · have : L v = lam • v - mv J v := funext fun i => hL v i
    rw [this]
    exact V.sub_mem (V.smul_mem _ hv) (hV v hv)
  · have : L x = b := funext fun i => (hL x i).trans (hx i)
    rw [this]; exact hb

theorem mem_complex {J : _root_.Fin n → _root_.Fin n → ℝ} {V : Submodule ℝ (_root_.Fin n → ℝ)} (hV : ∀ v ∈ V, mv J v ∈ V)
    {al be : ℝ} (hs : ∀ b c : _root_.Fin n → ℝ, ∃ x y : _root_.Fin n → ℝ,
      (∀ i, al * x i - be * y i - ∑ j, J i j * x j = b i) ∧ ∀ i, al * y i + be * x i - ∑ j, J i j * y j = c i)
    {x y b c : _root_.Fin n → ℝ} (hx : ∀ i, al * x i - be * y i - ∑ j, J i j * x j = b i)
    (hy : ∀ i, al * y i + be * x i - ∑ j, J i j * y j = c i) (hb : b ∈ V) (hc : c ∈ V) : x ∈ V ∧ y ∈ V := by
  let M : (_root_.Fin n → ℝ) →ₗ[ℝ] (_root_.Fin n → ℝ) := al • LinearMap.id - Matrix.toLin' (Matrix.of J)
  let p1 := LinearMap.fst ℝ (_root_.Fin n → ℝ) (_root_.Fin n → ℝ)
  let p2 := LinearMap.snd ℝ (_root_.Fin n → ℝ) (_root_.Fin n → ℝ)
  let L := (M ∘ₗ p1 - be • p2).prod (M ∘ₗ p2 + be • p1)
  have hM : ∀ x i, M x i = al * x i - ∑ j, J i j * x j := by
    intro x i
    simp [M, Matrix.toLin'_apply, Matrix.mulVec, dotProduct]
  have hL : ∀ x y b c : _root_.Fin n → ℝ, (∀ i, al * x i - be * y i - ∑ j, J i j * x j = b i) →
      (∀ i, al * y i + be * x i - ∑ j, J i j * y j = c i) → L (x, y) = (b, c) := by
    intro x y b c h1 h2
    refine Prod.ext (funext fun i => ?_) (funext fun i => ?_)
    · have : (L (x, y)).1 i = M x i - be * y i := rfl
      rw [this, hM, show (b, c).1 i = b i from rfl, ← h1 i]; ring
    · have : (L (x, y)).2 i = M y i + be * x i := rfl
      rw [this, hM, show (b, c).2 i = c i from rfl, ← h2 i]; ring
  have := mem_of_solves L (fun b => ?_) (V.prod V) (fun v hv => ?_) (x := (x, y)) (by rw [hL x y b c hx hy]; exact ⟨hb, hc⟩)
  · exact this
  · obtain ⟨x, y, h1, h2⟩ := hs b.1 b.2
    exact ⟨(x, y), hL x y _ _ h1 h2⟩
  · obtain ⟨h1, h2⟩ := hv
    have e1 : (L v).1 = al • v.1 - mv J v.1 - be • v.2 := funext fun i => by
      have : (L v).1 i = M v.1 i - be * v.2 i := rfl
      rw [this, hM]; rfl
    have e2 : (L v).2 = al • v.2 - mv J v.2 + be • v.1 := funext fun i => by
      have : (L v).2 i = M v.2 i + be * v.1 i := rfl
      rw [this, hM]; rfl
    refine ⟨?_, ?_⟩
    · change (L v).1 ∈ V
      rw [e1]
      exact V.sub_mem (V.sub_mem (V.smul_mem _ h1) (hV _ h1)) (V.smul_mem _ h2)
    · change (L v).2 ∈ V
      rw [e2]
      exact V.add_mem (V.sub_mem (V.smul_mem _ h2) (hV _ h2)) (V.smul_mem _ h1)

end
end Radau
end Cyphus
