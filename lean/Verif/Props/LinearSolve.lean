import Verif.Proofs.LuReal
import Verif.Proofs.LuComplex
import Verif.Spec.Linear
/-!
# The linear solvers: C34 – C40

Exact real and complex arithmetic. `dec`, `decc`, `dech`, `dechc` overwrite the matrix and the pivots (`st.a`, `st.ip`)
and return a code, documented to be zero on success; `sol`, `solc`, `solh`, `solhc` overwrite the right-hand side.
-/

namespace Cyphus
open Linalg Spec
set_option autoImplicit false
set_option linter.unusedSectionVars false
noncomputable section

section helpers
variable {K : Type} [Field K]

theorem Linalg.eff_det (n : ℕ) (A : NMat K) : (eff n 0 A).det = Spec.det n A := by rw [eff_zero_eq]; rfl

theorem Linalg.solves_iff (n : ℕ) (A : NMat K) (x b : NVec K) :
    Solves n A x b ↔ (eff n 0 A).mulVec (cut n x) = cut n b := by
  rw [eff_zero_eq, funext_iff]
  constructor
  · intro h i
    have := h i i.2
    exact (Fin.sum_univ_eq_sum_range (fun j => A i j * x j) n).trans this
  · intro h i hi
    have := h ⟨i, hi⟩
    rw [← Fin.sum_univ_eq_sum_range (fun j => A i j * x j) n]
    exact this

/-- The pieces every theorem below is put together from. -/
theorem Linalg.decK_out {pv : NMat K → ℕ → ℕ → ℕ} {Q : K → K → Prop} (HP : PivotOk pv Q) {n : ℕ} (hn : 1 ≤ n)
    {hi sc : ℕ → ℕ} (H : HiOk n hi sc) {A : NMat K} (hA : ∀ j i, j < n → hi j ≤ i → i < n → A i j = 0) (ip : ℕ → ℤ) :
    let r := decK pv n hi sc A ip
    (r.2 = 0 ↔ Spec.det n A ≠ 0 ∨ (2 ≤ n ∧ FirstColumnZero n A)) ∧
    (r.2 = 0 → ¬ FirstColumnZero n A → Lu Q n hi A r.1.a r.1.ip) := by
  intro r
  rw [← eff_det]
  rcases decK_spec HP hn H hA ip with ⟨h1, h2⟩ | ⟨h1, h2, h3⟩ | ⟨h1, h2, h3⟩
  · exact ⟨⟨fun _ => .inl (h2.det_ne hn), fun _ => h1⟩, fun _ _ => h2⟩
  · exact ⟨⟨fun _ => .inr ⟨h2, h3⟩, fun _ => h1⟩, fun _ h => absurd h3 h⟩
  · refine ⟨⟨fun h => absurd h h1, ?_⟩, fun h => absurd h h1⟩
    rintro (h | ⟨h4, h5⟩)
    · exact absurd h2 h
    · have := h3 h5; omega

theorem Linalg.Lu.full {Q : K → K → Prop} {n : ℕ} {hi : ℕ → ℕ} {A a : NMat K} {ip : ℕ → ℤ} (L : Lu Q n hi A a ip) :
    Lu Q n (fun _ => n) A a ip := ⟨L.run, L.last, L.ip_nonneg, L.sign, fun j i _ h1 h2 => by omega, L.mult⟩

end helpers

/-! ## C34, C35, C36: `dec` and `sol` -/

/-- C34: after a reported success on a matrix whose first column is not zero, `sol` solves the system, for every size and
every right-hand side. -/
theorem C34_real_solve {n : ℕ} (hn : 1 ≤ n) {A : NMat ℝ} {ip : ℕ → ℤ} {st : LuSt ℝ} (hd : dec n A ip = .ok (st, 0))
    (hc : ¬ FirstColumnZero n A) (b : NVec ℝ) : Solves n A (sol n st.a b st.ip) b := by
  rw [dec_eq hn] at hd
  obtain ⟨-, h⟩ := decK_out pivotOk hn (HiOk.full n) (A := A) (fun j i _ h1 h2 => by omega) ip
  rw [Res.ok.inj hd] at h
  rw [solves_iff, sol_eq hn]
  exact solK_spec (h rfl hc) b

/-- C34: on every nonsingular matrix the decomposition succeeds and `sol` returns the unique solution. -/
theorem C34_nonsingular {n : ℕ} (hn : 1 ≤ n) {A : NMat ℝ} (hA : Spec.det n A ≠ 0) (ip : ℕ → ℤ) :
    ∃ st, dec n A ip = .ok (st, 0) ∧ ∀ b : NVec ℝ, Solves n A (sol n st.a b st.ip) b ∧
      ∀ x, Solves n A x b → ∀ i, i < n → x i = sol n st.a b st.ip i := by
  obtain ⟨h1, -⟩ := decK_out pivotOk hn (HiOk.full n) (A := A) (fun j i _ h1 h2 => by omega) ip
  have h0 := h1.2 (.inl hA)
  have hd : dec n A ip = .ok ((decK pivot n (fun _ => n) (fun _ => n) A ip).1, 0) := by
    rw [dec_eq hn, ← h0]
  have hc : ¬ FirstColumnZero n A := by
    intro h
    apply hA
    exact Matrix.det_eq_zero_of_column_eq_zero (⟨0, by omega⟩ : Fin n) (fun i => h i i.2)
  refine ⟨_, hd, fun b => ⟨C34_real_solve hn hd hc b, fun x hx i hi => ?_⟩⟩
  have h2 := C34_real_solve hn hd hc b
  rw [solves_iff] at hx h2
  have := eff_unique (A := A) (by rw [eff_det]; exact hA) (hx.trans h2.symm)
  exact congrFun this ⟨i, hi⟩

/-- C35: the decomposition returns code zero exactly for nonsingular matrices and for matrices of size at least two whose
first column is zero. -/
theorem C35_real_code {n : ℕ} (hn : 1 ≤ n) (A : NMat ℝ) (ip : ℕ → ℤ) :
    ∃ st code, dec n A ip = .ok (st, code) ∧
      (code = 0 ↔ Spec.det n A ≠ 0 ∨ (2 ≤ n ∧ FirstColumnZero n A)) := by
  obtain ⟨h1, -⟩ := decK_out pivotOk hn (HiOk.full n) (A := A) (fun j i _ h1 h2 => by omega) ip
  exact ⟨_, _, dec_eq hn A ip, h1⟩

/-- C35, the defect: for every size at least two there is a singular matrix reported as decomposed, for which no result of
`sol` can be right. -/
theorem C35_singular_reported_ok {n : ℕ} (hn : 2 ≤ n) (ip : ℕ → ℤ) :
    ∃ (A : NMat ℝ) (b : NVec ℝ) (st : LuSt ℝ), dec n A ip = .ok (st, 0) ∧ Spec.det n A = 0 ∧
      ¬ ∃ x, Solves n A x b := by
  obtain ⟨st, code, hd, hc⟩ := C35_real_code (show 1 ≤ n by omega) (fun _ _ => 0 : NMat ℝ) ip
  have hz : FirstColumnZero n (fun _ _ => 0 : NMat ℝ) := fun _ _ => rfl
  have h0 := hc.2 (.inr ⟨hn, hz⟩)
  subst h0
  refine ⟨_, fun _ => 1, st, hd, ?_, ?_⟩
  · exact Matrix.det_eq_zero_of_column_eq_zero (⟨0, by omega⟩ : Fin n) (fun i => rfl)
  · rintro ⟨x, hx⟩
    have := hx 0 (by omega)
    simp at this

/-- C35: an empty system is not accepted at all: `n - 1` underflows. -/
theorem C35_empty (A : NMat ℝ) (ip : ℕ → ℤ) : dec 0 A ip = .panic := rfl

/-- C36: partial pivoting and determinant bookkeeping. -/
theorem C36_pivoting {n : ℕ} (hn : 1 ≤ n) {A : NMat ℝ} {ip : ℕ → ℤ} {st : LuSt ℝ} (hd : dec n A ip = .ok (st, 0))
    (hc : ¬ FirstColumnZero n A) :
    (∀ i j, j < i → i < n → |st.a i j| ≤ 1) ∧
    (∀ k, k < n - 1 → (k : ℤ) ≤ st.ip k ∧ st.ip k < n) ∧
    (st.ip (n - 1) = 1 ∨ st.ip (n - 1) = -1) ∧
    Spec.det n A = st.ip (n - 1) * ∏ i ∈ Finset.range n, st.a i i := by
  rw [dec_eq hn] at hd
  obtain ⟨-, h⟩ := decK_out pivotOk hn (HiOk.full n) (A := A) (fun j i _ h1 h2 => by omega) ip
  rw [Res.ok.inj hd] at h
  have L := h rfl hc
  refine ⟨?_, ?_, L.sign_sq, ?_⟩
  · intro i j hj hi
    obtain ⟨e, t, h1, h2, h3⟩ := L.mult j i hj hi
    change st.a i j = _ at h3
    rw [h3, abs_neg, abs_mul, abs_inv, ← div_eq_mul_inv]
    exact (div_le_one (abs_pos.2 h1)).2 h2
  · intro k hk
    have h1 := L.run.diag.2.2 k hk
    have h2 := L.ip_nonneg k hk
    dsimp only at h1 h2
    omega
  · rw [← eff_det, L.det hn]

/-- A matrix which needs an interchange. -/
def flip2 : NMat ℝ := fun i j => if i + j = 1 then 1 else 0

theorem flip2_det : Spec.det 2 flip2 = -1 := by
  unfold Spec.det
  rw [Matrix.det_fin_two]
  simp [flip2]

/-- The hypotheses of C34 and C36 hold for a matrix which needs an interchange. -/
example : ∃ st, dec 2 flip2 (fun _ => 0) = .ok (st, 0) ∧ ¬ FirstColumnZero 2 flip2 := by
  obtain ⟨st, h, -⟩ := C34_nonsingular (n := 2) (by omega) (A := flip2) (by rw [flip2_det]; norm_num) (fun _ => 0)
  exact ⟨st, h, fun h => by simpa [flip2] using h 1 (by omega)⟩

/-- A singular matrix with nonzero first column. -/
example : ∃ st code, dec 2 (fun _ _ => 1 : NMat ℝ) (fun _ => 0) = .ok (st, code) ∧ code ≠ 0 := by
  obtain ⟨st, code, h, hc⟩ := C35_real_code (n := 2) (by omega) (fun _ _ => 1 : NMat ℝ) (fun _ => 0)
  refine ⟨st, code, h, fun h0 => ?_⟩
  rcases hc.1 h0 with h1 | ⟨-, h1⟩
  · apply h1
    unfold Spec.det
    rw [Matrix.det_fin_two]; simp
  · simpa using h1 0 (by omega)

/-! ## C37, C38: `decc` and `solc` -/

/-- C37: the same for complex systems. -/
theorem C37_complex_solve {n : ℕ} (hn : 1 ≤ n) {ar ai : NMat ℝ} {ip : ℕ → ℤ} {st : LucSt ℝ}
    (hd : decc n ar ai ip = .ok (st, 0)) (hc : ¬ FirstColumnZero n (complexMatrix ar ai)) (b : NVec ℝ × NVec ℝ) :
    Solves n (complexMatrix ar ai) (complexVector (solc n st.ar st.ai b st.ip)) (complexVector b) := by
  obtain ⟨r, h1, h2⟩ := decc_eq hn ar ai ip
  rw [hd] at h1
  obtain rfl := Res.ok.inj h1
  obtain ⟨-, h⟩ := decK_out pivotCOk hn (HiOk.full n) (A := cj (ar, ai)) (fun j i _ h1 h2 => by omega) ip
  rw [← h2] at h
  rw [solves_iff]
  have e : complexVector (solc n st.ar st.ai b st.ip) = _ := solc_eq hn st.ar st.ai b st.ip
  rw [e]
  exact solK_spec (h rfl hc) _

/-- C37: on every nonsingular complex matrix the decomposition succeeds. -/
theorem C37_nonsingular {n : ℕ} (hn : 1 ≤ n) {ar ai : NMat ℝ} (hA : Spec.det n (complexMatrix ar ai) ≠ 0) (ip : ℕ → ℤ) :
    ∃ st, decc n ar ai ip = .ok (st, 0) ∧ ∀ b,
      Solves n (complexMatrix ar ai) (complexVector (solc n st.ar st.ai b st.ip)) (complexVector b) := by
  obtain ⟨⟨st, code⟩, h1, h2⟩ := decc_eq hn ar ai ip
  obtain ⟨h, -⟩ := decK_out pivotCOk hn (HiOk.full n) (A := cj (ar, ai)) (fun j i _ h1 h2 => by omega) ip
  rw [← h2] at h
  have h0 : code = 0 := h.2 (.inl hA)
  subst h0
  have hc : ¬ FirstColumnZero n (complexMatrix ar ai) := by
    intro h
    apply hA
    exact Matrix.det_eq_zero_of_column_eq_zero (⟨0, by omega⟩ : Fin n) (fun i => h i i.2)
  exact ⟨st, h1, C37_complex_solve hn h1 hc⟩

/-- C38: the code of the complex decomposition. -/
theorem C38_complex_code {n : ℕ} (hn : 1 ≤ n) (ar ai : NMat ℝ) (ip : ℕ → ℤ) :
    ∃ st code, decc n ar ai ip = .ok (st, code) ∧
      (code = 0 ↔ Spec.det n (complexMatrix ar ai) ≠ 0 ∨ (2 ≤ n ∧ FirstColumnZero n (complexMatrix ar ai))) := by
  obtain ⟨⟨st, code⟩, h1, h2⟩ := decc_eq hn ar ai ip
  obtain ⟨h, -⟩ := decK_out pivotCOk hn (HiOk.full n) (A := cj (ar, ai)) (fun j i _ h1 h2 => by omega) ip
  rw [← h2] at h
  exact ⟨st, code, h1, h⟩

/-- The hypotheses of C37 hold for a complex matrix which needs an interchange. -/
example : ∃ st, decc 2 (fun _ _ => 0) flip2 (fun _ => 0) = .ok (st, 0) ∧
    ¬ FirstColumnZero 2 (complexMatrix (fun _ _ => 0) flip2) := by
  have hd : Spec.det 2 (complexMatrix (fun _ _ => 0) flip2) ≠ 0 := by
    unfold Spec.det
    rw [Matrix.det_fin_two]
    simp [complexMatrix, flip2, Complex.ext_iff]
  obtain ⟨st, h, -⟩ := C37_nonsingular (n := 2) (by omega) hd (fun _ => 0)
  exact ⟨st, h, fun h => by simpa [complexMatrix, flip2, Complex.ext_iff] using h 1 (by omega)⟩

/-! ## C39: `dech` and `solh` -/

/-- C39: the Hessenberg (lower band) versions are right for matrices with that shape. -/
theorem C39_hessenberg_solve {n : ℕ} (hn : 1 ≤ n) {lb : ℕ} {A : NMat ℝ} (hA : LowerBand n lb A) {ip : ℕ → ℤ} {st : LuSt ℝ}
    (hd : dech n A lb ip = .ok (st, 0)) (hc : ¬ FirstColumnZero n A) (b : NVec ℝ) :
    Solves n A (solh n st.a lb b st.ip) b := by
  rw [dech_eq hn] at hd
  obtain ⟨-, h⟩ := decK_out pivotOk hn (HiOk.band n lb) (A := A) (fun j i _ h1 h2 => hA i j h2 (by omega)) ip
  rw [Res.ok.inj hd] at h
  rw [solves_iff, solh_eq hn]
  exact solK_spec (h rfl hc) b

/-- C39: the code, as in C35. -/
theorem C39_hessenberg_code {n : ℕ} (hn : 1 ≤ n) {lb : ℕ} {A : NMat ℝ} (hA : LowerBand n lb A) (ip : ℕ → ℤ) :
    ∃ st code, dech n A lb ip = .ok (st, code) ∧
      (code = 0 ↔ Spec.det n A ≠ 0 ∨ (2 ≤ n ∧ FirstColumnZero n A)) := by
  obtain ⟨h, -⟩ := decK_out pivotOk hn (HiOk.band n lb) (A := A) (fun j i _ h1 h2 => hA i j h2 (by omega)) ip
  exact ⟨_, _, dech_eq hn A lb ip, h⟩

/-- The hypotheses of C39 hold for a Hessenberg matrix with a proper band: the cyclic shift of size 3. -/
example : ∃ A : NMat ℝ, LowerBand 3 1 A ∧ (∃ st, dech 3 A 1 (fun _ => 0) = .ok (st, 0)) ∧ ¬ FirstColumnZero 3 A := by
  refine ⟨fun i j => if i = j + 1 ∨ (i = 0 ∧ j = 2) then 1 else 0, ?_, ?_, ?_⟩
  · intro i j hi hj
    dsimp only
    rw [if_neg (by omega)]
  · obtain ⟨st, code, h, hc⟩ := C39_hessenberg_code (n := 3) (by omega) (lb := 1)
      (A := fun i j => if i = j + 1 ∨ (i = 0 ∧ j = 2) then 1 else 0)
      (by intro i j hi hj; dsimp only; rw [if_neg (by omega)]) (fun _ => 0)
    have : code = 0 := by
      refine hc.2 (.inl ?_)
      unfold Spec.det
      rw [Matrix.det_fin_three]; simp
    subst this
    exact ⟨st, h⟩
  · intro h
    simpa using h 1 (by omega)

/-! ## C40: `dechc` and `solhc` -/

section
variable {K : Type} [Field K]

theorem Linalg.upper_decK {pv : NMat K → ℕ → ℕ → ℕ} {U : NMat K} (h0 : U 0 0 ≠ 0) (h1 : U 1 1 ≠ 0) (hl : U 1 0 = 0)
    (hp : pv U 0 2 = 0) (ip : ℕ → ℤ) :
    let r := decK pv 2 (fun k => min 2 (1 + k + 1)) (fun k => min 2 (1 + k + 1)) U ip
    r.2 = 0 ∧ r.1.ip 0 = 0 ∧ ∀ i j, i < 2 → j < 2 → r.1.a i j = U i j := by
  have e : bodyK pv 2 (fun k => min 2 (1 + k + 1)) (fun k => min 2 (1 + k + 1)) ⟨U, set1 ip 1 1, none⟩ 0 =
      ⟨forRange 1 2 (scaleK U 0 1 2 (U 0 0)⁻¹) (elimK 0 0 2), set1 (set1 ip 1 1) 0 0, none⟩ := by
    simp [bodyK, hp, swapK, h0]
  have ha : ∀ i j, i < 2 → j < 2 → forRange 1 2 (scaleK U 0 1 2 (U 0 0)⁻¹) (elimK 0 0 2) i j = U i j := by
    intro i j hi hj
    rw [elimCols_apply le_rfl (by omega)]
    simp only [colForm, scaleK_apply, swp]
    interval_cases i <;> interval_cases j <;> simp [hl]
  have er : decK pv 2 (fun k => min 2 (1 + k + 1)) (fun k => min 2 (1 + k + 1)) U ip =
      endK 2 ⟨forRange 1 2 (scaleK U 0 1 2 (U 0 0)⁻¹) (elimK 0 0 2), set1 (set1 ip 1 1) 0 0, none⟩ := by
    rw [← e]; rfl
  intro r
  have : r = (⟨forRange 1 2 (scaleK U 0 1 2 (U 0 0)⁻¹) (elimK 0 0 2), set1 (set1 ip 1 1) 0 0, none⟩, 0) := by
    change decK pv 2 _ _ U ip = _
    rw [er]
    unfold endK
    dsimp only
    rw [if_neg]
    rw [ha 1 1 (by omega) (by omega)]; exact h1
  rw [this]
  exact ⟨rfl, rfl, ha⟩

end

/-- An upper triangular 2 × 2 matrix. -/
def upper2 (d0 c d1 : ℝ) : NMat ℝ := fun i j => if i = 0 then (if j = 0 then d0 else c) else if j = 0 then 0 else d1

theorem Linalg.upper2_dechc {d0r d0i cr ci d1r d1i : ℝ} (h0 : d0r ≠ 0 ∨ d0i ≠ 0) (h1 : d1r ≠ 0 ∨ d1i ≠ 0) (ip : ℕ → ℤ) :
    ∃ st, dechc 2 (upper2 d0r cr d1r) (upper2 d0i ci d1i) 1 ip = .ok (st, 0) ∧ st.ip 0 = 0 ∧
      ∀ i j, i < 2 → j < 2 → st.ar i j = upper2 d0r cr d1r i j ∧ st.ai i j = upper2 d0i ci d1i i j := by
  have hp : pivotc (upper2 d0r cr d1r) (upper2 d0i ci d1i) 0 2 = 0 := by
    have : ¬ (|d0r| + |d0i| < 0) := not_lt.2 (by positivity)
    simp [pivotc, forRange, upper2, this]
  have hz : |d0r| + |d0i| ≠ 0 := fun h => by
    rw [add_eq_zero_iff_of_nonneg (abs_nonneg _) (abs_nonneg _), abs_eq_zero, abs_eq_zero] at h
    tauto
  have hz1 : |d1r| + |d1i| ≠ 0 := fun h => by
    rw [add_eq_zero_iff_of_nonneg (abs_nonneg _) (abs_nonneg _), abs_eq_zero, abs_eq_zero] at h
    tauto
  have e0 : (0.0 : ℝ) = 0 := by norm_num
  obtain ⟨⟨st, code⟩, g1, g2⟩ := dechc_eq (n := 2) (by omega) (upper2 d0r cr d1r) (upper2 d0i ci d1i) 1 (by omega) ip
  have hd : (cj (upper2 d0r cr d1r, upper2 d0i ci d1i)) 0 0 ≠ 0 := by
    intro h
    apply hz
    have := n1_zero.2 h
    exact this
  have hd1 : (cj (upper2 d0r cr d1r, upper2 d0i ci d1i)) 1 1 ≠ 0 := by
    intro h
    apply hz1
    have := n1_zero.2 h
    exact this
  have hl : (cj (upper2 d0r cr d1r, upper2 d0i ci d1i)) 1 0 = 0 := by
    apply Complex.ext <;> rfl
  have hp' : pivotC (cj (upper2 d0r cr d1r, upper2 d0i ci d1i)) 0 2 = 0 := hp
  have h := upper_decK hd hd1 hl hp' ip
  rw [← g2] at h
  obtain ⟨k1, k2, k3⟩ := h
  have k1 : code = 0 := k1
  subst k1
  refine ⟨st, g1, k2, fun i j hi hj => ?_⟩
  have := k3 i j hi hj
  exact ⟨congrArg Complex.re this, congrArg Complex.im this⟩

/-- C40: for an upper triangular 2 × 2 system with nonzero diagonal, `solhc` returns a solution only if the off-diagonal
entry or the second right-hand side is zero. -/
theorem C40_solhc_wrong {d0r d0i cr ci d1r d1i : ℝ} (h0 : d0r ≠ 0 ∨ d0i ≠ 0) (h1 : d1r ≠ 0 ∨ d1i ≠ 0) (ip : ℕ → ℤ)
    (b : NVec ℝ × NVec ℝ) :
    ∃ st, dechc 2 (upper2 d0r cr d1r) (upper2 d0i ci d1i) 1 ip = .ok (st, 0) ∧
      (Solves 2 (complexMatrix (upper2 d0r cr d1r) (upper2 d0i ci d1i))
        (complexVector (solhc 2 st.ar st.ai 1 b st.ip)) (complexVector b) ↔
        (⟨cr, ci⟩ : ℂ) * complexVector b 1 = 0) := by
  obtain ⟨st, g1, g2, g3⟩ := upper2_dechc (cr := cr) (ci := ci) h0 h1 ip
  refine ⟨st, g1, ?_⟩
  have hs : cv (solhc 2 st.ar st.ai 1 b st.ip) =
      set1 (set1 (fwdK (cj (st.ar, st.ai)) st.ip 2 (cv b) 0) 1 (fwdK (cj (st.ar, st.ai)) st.ip 2 (cv b) 0 1 / cj (st.ar, st.ai) 1 1)) 0
        (set1 (fwdK (cj (st.ar, st.ai)) st.ip 2 (cv b) 0) 1 (fwdK (cj (st.ar, st.ai)) st.ip 2 (cv b) 0 1 / cj (st.ar, st.ai) 1 1) 0 /
          cj (st.ar, st.ai) 0 0) := by
    have : solhc 2 st.ar st.ai 1 b st.ip = divDiagc st.ar st.ai (divDiagc st.ar st.ai (fwdStepc st.ar st.ai st.ip 2 b 0) 1) 0 := rfl
    rw [this, divDiagc_eq, divDiagc_eq, fwdStepc_eq]
  have c00 : cj (st.ar, st.ai) 0 0 = ⟨d0r, d0i⟩ :=
    Complex.ext (g3 0 0 (by omega) (by omega)).1 (g3 0 0 (by omega) (by omega)).2
  have c10 : cj (st.ar, st.ai) 1 0 = 0 :=
    Complex.ext (g3 1 0 (by omega) (by omega)).1 (g3 1 0 (by omega) (by omega)).2
  have c11 : cj (st.ar, st.ai) 1 1 = ⟨d1r, d1i⟩ :=
    Complex.ext (g3 1 1 (by omega) (by omega)).1 (g3 1 1 (by omega) (by omega)).2
  have hf : fwdK (cj (st.ar, st.ai)) st.ip 2 (cv b) 0 = cv b := by
    have e : ∀ (v : NVec ℂ) (i : ℕ), set1 v i (v i) = v := by
      intro v i
      funext j
      unfold set1
      split_ifs with h
      · rw [h]
      · rfl
    simp only [fwdK, g2, forRange]
    simp [c10, e]
  have n0 : (⟨d0r, d0i⟩ : ℂ) ≠ 0 := fun h => by
    have h2 := congrArg Complex.re h; have h3 := congrArg Complex.im h
    simp only [Complex.zero_re, Complex.zero_im] at h2 h3
    tauto
  have n1 : (⟨d1r, d1i⟩ : ℂ) ≠ 0 := fun h => by
    have h2 := congrArg Complex.re h; have h3 := congrArg Complex.im h
    simp only [Complex.zero_re, Complex.zero_im] at h2 h3
    tauto
  rw [hf, c00, c11] at hs
  change Solves 2 _ (cv _) _ ↔ _
  rw [hs]
  have m00 : complexMatrix (upper2 d0r cr d1r) (upper2 d0i ci d1i) 0 0 = ⟨d0r, d0i⟩ := rfl
  have m01 : complexMatrix (upper2 d0r cr d1r) (upper2 d0i ci d1i) 0 1 = ⟨cr, ci⟩ := rfl
  have m10 : complexMatrix (upper2 d0r cr d1r) (upper2 d0i ci d1i) 1 0 = 0 := by apply Complex.ext <;> rfl
  have m11 : complexMatrix (upper2 d0r cr d1r) (upper2 d0i ci d1i) 1 1 = ⟨d1r, d1i⟩ := rfl
  generalize complexMatrix (upper2 d0r cr d1r) (upper2 d0i ci d1i) = M at *
  change Solves 2 M _ (cv b) ↔ _ * cv b 1 = 0
  generalize cv b = β
  generalize (⟨d0r, d0i⟩ : ℂ) = d0 at *
  generalize (⟨d1r, d1i⟩ : ℂ) = d1 at *
  generalize (⟨cr, ci⟩ : ℂ) = c at *
  constructor
  · intro h
    have := h 0 (by omega)
    simp [Finset.sum_range_succ, set1, m00, m01, mul_div_cancel₀ _ n0] at this
    rcases this with h | h | h
    · rw [h, zero_mul]
    · rw [h, mul_zero]
    · exact absurd h n1
  · intro h i hi
    interval_cases i
    · have : c * (β 1 / d1) = 0 := by rw [← mul_div_assoc, h, zero_div]
      simp [Finset.sum_range_succ, set1, m00, m01, mul_div_cancel₀ _ n0, this]
    · simp [Finset.sum_range_succ, set1, m10, m11, mul_div_cancel₀ _ n1]

/-- C40: the decomposition itself is right; together with the general solver the system is solved. -/
theorem C40_dechc_with_solc {n : ℕ} (hn : 1 ≤ n) {lb : ℕ} (hl : lb ≠ 0) {ar ai : NMat ℝ}
    (hA : LowerBand n lb (complexMatrix ar ai)) {ip : ℕ → ℤ} {st : LucSt ℝ}
    (hd : dechc n ar ai lb ip = .ok (st, 0)) (hc : ¬ FirstColumnZero n (complexMatrix ar ai)) (b : NVec ℝ × NVec ℝ) :
    Solves n (complexMatrix ar ai) (complexVector (solc n st.ar st.ai b st.ip)) (complexVector b) := by
  obtain ⟨r, h1, h2⟩ := dechc_eq hn ar ai lb hl ip
  rw [hd] at h1
  obtain rfl := Res.ok.inj h1
  have hb : HiOk n (fun k => min n (lb + k + 1)) (fun k => min n (lb + k + 1)) :=
    ⟨(HiOk.band n lb).lt, (HiOk.band n lb).le, (HiOk.band n lb).mono, fun k => ⟨le_rfl, (HiOk.band n lb).le k⟩⟩
  obtain ⟨-, h⟩ := decK_out pivotCOk hn hb (A := cj (ar, ai)) (fun j i _ h1 h2 => hA i j h2 (by omega)) ip
  rw [← h2] at h
  rw [solves_iff]
  have e : complexVector (solc n st.ar st.ai b st.ip) = _ := solc_eq hn st.ar st.ai b st.ip
  rw [e]
  exact solK_spec (h rfl hc).full _

end
end Cyphus
