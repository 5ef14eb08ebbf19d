import Mathlib.LinearAlgebra.Matrix.Determinant.Basic
import Mathlib.LinearAlgebra.Matrix.NonsingularInverse
import Mathlib.LinearAlgebra.Matrix.Block
import Mathlib.LinearAlgebra.Matrix.ToLinearEquiv
import Mathlib.Tactic.FieldSimp
import Mathlib.Tactic.LinearCombination
/-!
# Gaussian elimination with row interchanges over a field

The matrix is stored as a function on natural numbers, the multipliers overwrite the part below the diagonal and are not
interchanged afterwards, exactly as in `src/linalg`.
-/

namespace Cyphus
namespace Linalg
set_option autoImplicit false
open Matrix
variable {K : Type} [Field K]

/-- The interchange of `k` and `m`. -/
def swp (k m i : ℕ) : ℕ := if i = k then m else if i = m then k else i

theorem swp_val {n : ℕ} (k m i : Fin n) : ((Equiv.swap k m i : Fin n) : ℕ) = swp k m i := by
  rw [Equiv.swap_apply_def]
  unfold swp
  simp only [Fin.ext_iff]
  split
  · rfl
  · split <;> rfl

/-- The matrix of the system after `k` elimination steps: multipliers are replaced by the zeros they stand for. -/
def eff (n k : ℕ) (a : ℕ → ℕ → K) : Matrix (Fin n) (Fin n) K :=
  fun i j => if (j : ℕ) < min (i : ℕ) k then 0 else a i j

/-- One elimination step. -/
structure ElimStep (n k m : ℕ) (a a' : ℕ → ℕ → K) : Prop where
  hk : k < n
  hkm : k ≤ m
  hm : m < n
  piv : a m k ≠ 0
  colLt : ∀ i j, i < n → j < k → a' i j = a i j
  rowLt : ∀ i j, i < k → k ≤ j → j < n → a' i j = a i j
  row : ∀ j, k ≤ j → j < n → a' k j = a m j
  mult : ∀ i, k < i → i < n → a' i k * a m k = -(a (swp k m i) k)
  rest : ∀ i j, k < i → i < n → k < j → j < n → a' i j = a (swp k m i) j + a' i k * a m j

/-- The matrix of one elimination step. -/
def Lmat (n k : ℕ) (a : ℕ → ℕ → K) : Matrix (Fin n) (Fin n) K :=
  fun i j => if i = j then 1 else if (j : ℕ) = k ∧ k < (i : ℕ) then a i k else 0

theorem Lmat_det (n k : ℕ) (a : ℕ → ℕ → K) : (Lmat n k a).det = 1 := by
  rw [Matrix.det_of_isLowerTriangular]
  · simp [Lmat]
  · intro i j hij
    have hij : i < j := hij
    unfold Lmat
    rw [if_neg hij.ne, if_neg]
    rintro ⟨h1, h2⟩
    have : (i : ℕ) < j := hij
    omega

theorem Lmat_mul {n k : ℕ} (hk : k < n) (a : ℕ → ℕ → K) {m : Type} (M : Matrix (Fin n) m K)
    (i : Fin n) (j : m) :
    (Lmat n k a * M) i j = M i j + if k < (i : ℕ) then a i k * M ⟨k, hk⟩ j else 0 := by
  rw [Matrix.mul_apply]
  by_cases h : k < (i : ℕ)
  · rw [if_pos h]
    have hne : i ≠ ⟨k, hk⟩ := by intro e; rw [e] at h; simp at h
    rw [← Finset.add_sum_erase _ _ (Finset.mem_univ i), ← Finset.add_sum_erase _ _
      (Finset.mem_erase.2 ⟨hne.symm, Finset.mem_univ (⟨k, hk⟩ : Fin n)⟩)]
    rw [Finset.sum_eq_zero]
    · simp [Lmat, hne, h]
    · intro x hx
      simp only [Finset.mem_erase, Finset.mem_univ, and_true] at hx
      have : (x : ℕ) ≠ k := fun e => hx.1 (Fin.ext e)
      simp [Lmat, Ne.symm hx.2, this]
  · rw [if_neg h, add_zero, Finset.sum_eq_single i]
    · simp [Lmat]
    · intro x _ hx
      simp [Lmat, hx.symm, h]
    · simp

theorem ElimStep.eff_succ {n k m : ℕ} {a a' : ℕ → ℕ → K} (S : ElimStep n k m a a') :
    eff n (k + 1) a' = Lmat n k a' *
      (eff n k a).submatrix (Equiv.swap (⟨k, S.hk⟩ : Fin n) ⟨m, S.hm⟩) id := by
  have hkm := S.hkm
  have hm := S.hm
  ext i j
  rw [Lmat_mul S.hk]
  simp only [Matrix.submatrix_apply, id, Equiv.swap_apply_left]
  unfold eff
  rw [swp_val]
  have hj := j.2
  have hi := i.2
  simp only [min_eq_right hkm]
  rcases lt_trichotomy (i : ℕ) k with h | h | h
  · have e : swp k m i = i := by unfold swp; split_ifs <;> omega
    rw [if_neg (by omega : ¬ k < (i : ℕ)), add_zero, e, min_eq_left (by omega), min_eq_left (by omega)]
    split_ifs with h1
    · rfl
    · by_cases h2 : (j : ℕ) < k
      · exact S.colLt _ _ hi h2
      · exact S.rowLt _ _ h (by omega) hj
  · have e : swp k m i = m := by unfold swp; rw [if_pos h]
    rw [if_neg (by omega : ¬ k < (i : ℕ)), add_zero, e, min_eq_right hkm, h, min_eq_left (by omega)]
    split_ifs with h1
    · rfl
    · exact S.row _ (by omega) hj
  · have e : k ≤ swp k m i := by unfold swp; split_ifs <;> omega
    rw [if_pos h, min_eq_right e, min_eq_right (by omega : k + 1 ≤ (i : ℕ))]
    rcases lt_trichotomy (j : ℕ) k with h1 | h1 | h1
    · rw [if_pos (by omega), if_pos h1, if_pos h1]; simp
    · rw [if_pos (by omega), if_neg (by omega), if_neg (by omega), h1, S.mult i h hi]; ring
    · rw [if_neg (by omega), if_neg (by omega), if_neg (by omega), S.rest i j h hi h1 hj]

/-- One step of the forward substitution. -/
structure FwdStep (n k m : ℕ) (a : ℕ → ℕ → K) (b b' : ℕ → K) : Prop where
  lt : ∀ i, i < k → b' i = b i
  row : b' k = b m
  rest : ∀ i, k < i → i < n → b' i = b (swp k m i) + a i k * b m

/-- The first `n` entries as a vector. -/
def cut (n : ℕ) (b : ℕ → K) : Fin n → K := fun i => b i

theorem ElimStep.solve_iff {n k m : ℕ} {a a' : ℕ → ℕ → K} (S : ElimStep n k m a a') {b b' : ℕ → K}
    (B : FwdStep n k m a' b b') (x : Fin n → K) :
    eff n k a *ᵥ x = cut n b ↔ eff n (k + 1) a' *ᵥ x = cut n b' := by
  have hb : cut n b' = Lmat n k a' *ᵥ (cut n b ∘ Equiv.swap (⟨k, S.hk⟩ : Fin n) ⟨m, S.hm⟩) := by
    ext i
    have h := Lmat_mul S.hk a' (Matrix.of fun (i : Fin n) (_ : Unit) =>
      (cut n b ∘ Equiv.swap (⟨k, S.hk⟩ : Fin n) ⟨m, S.hm⟩) i) i ()
    have h' : (Lmat n k a' * (Matrix.of fun (i : Fin n) (_ : Unit) =>
      (cut n b ∘ Equiv.swap (⟨k, S.hk⟩ : Fin n) ⟨m, S.hm⟩) i)) i () =
      (Lmat n k a' *ᵥ (cut n b ∘ Equiv.swap (⟨k, S.hk⟩ : Fin n) ⟨m, S.hm⟩)) i := rfl
    rw [← h', h]
    simp only [Matrix.of_apply, Function.comp_apply, Equiv.swap_apply_left]
    unfold cut
    rw [swp_val]
    have hi := i.2
    have hkm := S.hkm
    rcases lt_trichotomy (i : ℕ) k with h | h | h
    · have e : swp k m i = i := by unfold swp; split_ifs <;> omega
      rw [if_neg (by omega), e, add_zero]; exact B.lt _ h
    · have e : swp k m i = m := by unfold swp; rw [if_pos h]
      rw [if_neg (by omega), e, add_zero, h]; exact B.row
    · rw [if_pos h]; exact B.rest _ h hi
  rw [hb, S.eff_succ, ← Matrix.mulVec_mulVec]
  have hL : Function.Injective (Lmat n k a').mulVec := by
    apply Matrix.mulVec_injective_of_isUnit
    rw [Matrix.isUnit_iff_isUnit_det, Lmat_det]; exact isUnit_one
  rw [hL.eq_iff]
  have hs : (eff n k a).submatrix (Equiv.swap (⟨k, S.hk⟩ : Fin n) ⟨m, S.hm⟩) id *ᵥ x =
      (eff n k a *ᵥ x) ∘ Equiv.swap (⟨k, S.hk⟩ : Fin n) ⟨m, S.hm⟩ := rfl
  rw [hs]
  constructor
  · intro h; rw [h]
  · intro h
    have := congrArg (· ∘ Equiv.swap (⟨k, S.hk⟩ : Fin n) ⟨m, S.hm⟩) h
    simpa [Function.comp_assoc, ← Equiv.coe_trans] using this

theorem ElimStep.det {n k m : ℕ} {a a' : ℕ → ℕ → K} (S : ElimStep n k m a a') :
    (eff n k a).det = (if m = k then 1 else -1) * (eff n (k + 1) a').det := by
  rw [S.eff_succ, Matrix.det_mul, Lmat_det, one_mul]
  have : ((eff n k a).submatrix (Equiv.swap (⟨k, S.hk⟩ : Fin n) ⟨m, S.hm⟩) id).det =
      (Equiv.Perm.sign (Equiv.swap (⟨k, S.hk⟩ : Fin n) ⟨m, S.hm⟩) : ℤ) * (eff n k a).det :=
    Matrix.det_permute _ _
  rw [this]
  by_cases h : m = k
  · subst h; simp
  · rw [Equiv.Perm.sign_swap (by simpa [Fin.ext_iff] using fun e => h e.symm)]
    simp [h]

/-- `k` elimination steps with pivot rows `p`. -/
inductive LuRun (n : ℕ) (A : ℕ → ℕ → K) (p : ℕ → ℕ) : ℕ → (ℕ → ℕ → K) → Prop
  | zero : LuRun n A p 0 A
  | succ {k : ℕ} {a a' : ℕ → ℕ → K} : LuRun n A p k a → ElimStep n k (p k) a a' → LuRun n A p (k + 1) a'

theorem LuRun.congr {n : ℕ} {A : ℕ → ℕ → K} {p q : ℕ → ℕ} {k : ℕ} {a : ℕ → ℕ → K} (h : LuRun n A p k a)
    (hp : ∀ i, i < k → p i = q i) : LuRun n A q k a := by
  induction h with
  | zero => exact .zero
  | @succ k a a' _ S ih =>
    exact .succ (ih fun i hi => hp i (by omega)) (hp k (by omega) ▸ S)

/-- `k` steps of the forward substitution. -/
inductive FwdRun (n : ℕ) (a : ℕ → ℕ → K) (p : ℕ → ℕ) (b : ℕ → K) : ℕ → (ℕ → K) → Prop
  | zero : FwdRun n a p b 0 b
  | succ {k : ℕ} {c c' : ℕ → K} : FwdRun n a p b k c → FwdStep n k (p k) a c c' → FwdRun n a p b (k + 1) c'

theorem FwdRun.congr {n : ℕ} {a a' : ℕ → ℕ → K} {p : ℕ → ℕ} {b : ℕ → K} {k : ℕ} {c : ℕ → K}
    (h : FwdRun n a p b k c) (ha : ∀ i j, i < n → j < k → a' i j = a i j) : FwdRun n a' p b k c := by
  induction h with
  | zero => exact .zero
  | @succ k c c' _ S ih =>
    refine .succ (ih fun i j hi hj => ha i j hi (by omega)) ⟨S.lt, S.row, fun i h1 h2 => ?_⟩
    rw [S.rest i h1 h2, ha i k h2 (by omega)]

theorem eff_zero_eq (n : ℕ) (a : ℕ → ℕ → K) : eff n 0 a = Matrix.of fun (i j : Fin n) => a i j := by
  ext i j; simp [eff]

theorem LuRun.solve_iff {n : ℕ} {A : ℕ → ℕ → K} {p : ℕ → ℕ} {k : ℕ} {a : ℕ → ℕ → K} (h : LuRun n A p k a)
    {b c : ℕ → K} (hb : FwdRun n a p b k c) (x : Fin n → K) :
    eff n 0 A *ᵥ x = cut n b ↔ eff n k a *ᵥ x = cut n c := by
  induction h generalizing c with
  | zero => cases hb; rfl
  | succ _ S ih =>
    cases hb with
    | succ h1 h2 =>
      rw [ih (h1.congr fun i j hi hj => (S.colLt i j hi hj).symm), S.solve_iff h2]

theorem LuRun.det {n : ℕ} {A : ℕ → ℕ → K} {p : ℕ → ℕ} {k : ℕ} {a : ℕ → ℕ → K} (h : LuRun n A p k a) :
    (eff n 0 A).det = (∏ i ∈ Finset.range k, if p i = i then 1 else -1) * (eff n k a).det := by
  induction h with
  | zero => simp
  | succ _ S ih => rw [ih, S.det, Finset.prod_range_succ]; ring

theorem eff_last_det {n : ℕ} (a : ℕ → ℕ → K) {k : ℕ} (hk : n ≤ k + 1) :
    (eff n k a).det = ∏ i ∈ Finset.range n, a i i := by
  rw [Matrix.det_of_isUpperTriangular]
  · rw [← Fin.prod_univ_eq_prod_range (fun i => a i i) n]
    refine Finset.prod_congr rfl fun i _ => ?_
    simp [eff]
  · intro i j hij
    have h1 : (j : ℕ) < i := hij
    have := i.2
    unfold eff
    rw [if_pos (by omega)]

/-- The diagonal entries of completed steps are the pivots. -/
theorem LuRun.diag {n : ℕ} {A : ℕ → ℕ → K} {p : ℕ → ℕ} {k : ℕ} {a : ℕ → ℕ → K} (h : LuRun n A p k a) :
    (∀ i, i < k → a i i ≠ 0) ∧ k ≤ n ∧ ∀ i, i < k → i ≤ p i ∧ p i < n := by
  induction h with
  | zero => simp
  | @succ k a a' _ S ih =>
    refine ⟨fun i hi => ?_, S.hk, fun i hi => ?_⟩
    · rcases Nat.lt_succ_iff_lt_or_eq.1 hi with h | rfl
      · rw [S.colLt i i (by have := S.hk; omega) h]; exact ih.1 i h
      · rw [S.row i le_rfl S.hk]; exact S.piv
    · rcases Nat.lt_succ_iff_lt_or_eq.1 hi with h | rfl
      · exact ih.2.2 i h
      · exact ⟨S.hkm, S.hm⟩

/-- If no pivot can be found in column `k` the matrix is singular. -/
theorem LuRun.singular {n : ℕ} {A : ℕ → ℕ → K} {p : ℕ → ℕ} {k : ℕ} {a : ℕ → ℕ → K} (h : LuRun n A p k a)
    (hk : k < n) (hz : ∀ i, k ≤ i → i < n → a i k = 0) : (eff n 0 A).det = 0 := by
  rw [h.det]
  suffices (eff n k a).det = 0 by rw [this, mul_zero]
  -- the matrix is block triangular; the lower block has a zero column
  have hbt : (eff n k a).BlockTriangular (fun i : Fin n => decide (k ≤ (i : ℕ))) := by
    intro i j hij
    have h1 : (j : ℕ) < k ∧ k ≤ (i : ℕ) := by
      by_cases h1 : k ≤ (i : ℕ) <;> by_cases h2 : k ≤ (j : ℕ) <;> simp only [h1, h2, decide_true, decide_false] at hij
      · exact absurd hij (by decide)
      · exact ⟨by omega, h1⟩
      · exact absurd hij (by decide)
      · exact absurd hij (by decide)
    unfold eff; rw [if_pos (by omega)]
  rw [hbt.det]
  apply Finset.prod_eq_zero (i := true)
  · simp only [Finset.mem_image, Finset.mem_univ, true_and]
    exact ⟨⟨k, hk⟩, by simp⟩
  · apply Matrix.det_eq_zero_of_column_eq_zero (⟨⟨k, hk⟩, by simp⟩)
    rintro ⟨i, hi⟩
    simp only [decide_eq_true_eq] at hi
    simp only [Matrix.toSquareBlock_def, Matrix.of_apply, eff]
    rw [if_neg (by omega)]
    exact hz _ hi i.2

/-- The back substitution: the result of solving the upper triangular system. -/
def BackRun (n : ℕ) (a : ℕ → ℕ → K) (c x : ℕ → K) : Prop :=
  ∀ i, i < n → a i i * x i = c i - ∑ j ∈ Finset.Ico (i + 1) n, a i j * x j

theorem BackRun.solves {n : ℕ} {a : ℕ → ℕ → K} {c x : ℕ → K} (h : BackRun n a c x) {k : ℕ} (hk : n ≤ k + 1) :
    eff n k a *ᵥ cut n x = cut n c := by
  ext i
  have hi := i.2
  change ∑ j : Fin n, eff n k a i j * cut n x j = c i
  have : ∑ j : Fin n, eff n k a i j * cut n x j =
      ∑ j ∈ Finset.range n, if j < (i : ℕ) then 0 else a i j * x j := by
    rw [← Fin.sum_univ_eq_sum_range (fun j => if j < (i : ℕ) then 0 else a i j * x j) n]
    refine Finset.sum_congr rfl fun j _ => ?_
    unfold eff cut
    have : min (i : ℕ) k = i := by omega
    rw [this]
    split_ifs <;> simp
  rw [this, Finset.range_eq_Ico, ← Finset.sum_Ico_consecutive _ (Nat.zero_le (i : ℕ)) hi.le,
    Finset.sum_eq_zero, zero_add, Finset.sum_eq_sum_Ico_succ_bot hi]
  · have e : ∑ j ∈ Finset.Ico ((i : ℕ) + 1) n, (if j < (i : ℕ) then 0 else a i j * x j) =
        ∑ j ∈ Finset.Ico ((i : ℕ) + 1) n, a i j * x j := by
      refine Finset.sum_congr rfl fun j hj => ?_
      rw [Finset.mem_Ico] at hj
      rw [if_neg (by omega)]
    rw [if_neg (lt_irrefl _), h i hi, e]
    ring
  · intro j hj
    rw [Finset.mem_Ico] at hj
    rw [if_pos hj.2]

/-- One step of the column-oriented back substitution, for column `c`. -/
structure BackStep (c : ℕ) (a : ℕ → ℕ → K) (b b' : ℕ → K) : Prop where
  diag : a c c * b' c = b c
  lt : ∀ i, i < c → b' i = b i - a i c * b' c
  gt : ∀ i, c < i → b' i = b i

/-- `k` steps of the back substitution, beginning with the last column. -/
inductive BackSteps (n : ℕ) (a : ℕ → ℕ → K) (c : ℕ → K) : ℕ → (ℕ → K) → Prop
  | zero : BackSteps n a c 0 c
  | succ {k : ℕ} {b b' : ℕ → K} : BackSteps n a c k b → BackStep (n - 1 - k) a b b' → BackSteps n a c (k + 1) b'

theorem BackSteps.inv {n : ℕ} {a : ℕ → ℕ → K} {c b : ℕ → K} {k : ℕ} (h : BackSteps n a c k b) (hk : k ≤ n) :
    (∀ i, n - k ≤ i → i < n → a i i * b i = c i - ∑ j ∈ Finset.Ico (i + 1) n, a i j * b j) ∧
    (∀ i, i < n - k → b i = c i - ∑ j ∈ Finset.Ico (n - k) n, a i j * b j) := by
  induction h with
  | zero => exact ⟨fun i h1 h2 => by omega, fun i _ => by simp⟩
  | @succ k b b' _ S ih =>
    obtain ⟨i1, i2⟩ := ih (by omega)
    have e : n - (k + 1) = n - 1 - k := by omega
    have e2 : n - k = n - 1 - k + 1 := by omega
    have key : ∀ i, ∑ j ∈ Finset.Ico (n - k) n, a i j * b' j = ∑ j ∈ Finset.Ico (n - k) n, a i j * b j := by
      intro i
      refine Finset.sum_congr rfl fun j hj => ?_
      rw [Finset.mem_Ico] at hj
      rw [S.gt j (by omega)]
    rw [e]
    constructor
    · intro i h1 h2
      rcases Nat.lt_or_ge (n - 1 - k) i with h | h
      · rw [S.gt i h, i1 i (by omega) h2]
        congr 1
        refine Finset.sum_congr rfl fun j hj => ?_
        rw [Finset.mem_Ico] at hj
        rw [S.gt j (by omega)]
      · obtain rfl : i = n - 1 - k := by omega
        rw [S.diag, i2 _ (by omega), ← e2, key]
    · intro i hi
      rw [S.lt i hi, i2 i (by omega), Finset.sum_eq_sum_Ico_succ_bot (by omega : n - 1 - k < n), ← e2, key]
      ring

theorem BackSteps.backRun {n : ℕ} {a : ℕ → ℕ → K} {c b : ℕ → K} (h : BackSteps n a c n b) : BackRun n a c b :=
  fun i hi => (h.inv le_rfl).1 i (by omega) hi

/-- Solving with a complete factorization. -/
theorem LuRun.solve {n : ℕ} {A : ℕ → ℕ → K} {p : ℕ → ℕ} {a : ℕ → ℕ → K} (h : LuRun n A p (n - 1) a)
    {b c x : ℕ → K} (hf : FwdRun n a p b (n - 1) c) (hx : BackRun n a c x) :
    eff n 0 A *ᵥ cut n x = cut n b :=
  (h.solve_iff hf _).2 (hx.solves (by omega))

end Linalg
end Cyphus
