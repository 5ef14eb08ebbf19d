import Verif.Proofs.ElimCode
import Verif.Arith.Real
import Mathlib.Data.Complex.Basic
/-!
# The complex decompositions and solvers are the elimination of `Verif.Proofs.ElimCode` over the complex numbers
-/

namespace Cyphus
namespace Linalg
set_option autoImplicit false
set_option linter.unusedSectionVars false
noncomputable section

/-- A complex matrix stored as real and imaginary parts. -/
def cj (p : NMat ℝ × NMat ℝ) : NMat ℂ := fun i j => ⟨p.1 i j, p.2 i j⟩
/-- A complex vector stored as real and imaginary parts. -/
def cv (p : NVec ℝ × NVec ℝ) : NVec ℂ := fun i => ⟨p.1 i, p.2 i⟩
/-- The state of a complex decomposition. -/
def cst (st : LucSt ℝ) : LuSt ℂ := { a := cj (st.ar, st.ai), ip := st.ip, ret := st.ret }

/-- The size of a complex number used for pivoting. -/
def n1 (z : ℂ) : ℝ := |z.re| + |z.im|

theorem n1_zero {z : ℂ} : n1 z = 0 ↔ z = 0 := by
  unfold n1
  rw [add_eq_zero_iff_of_nonneg (abs_nonneg _) (abs_nonneg _), abs_eq_zero, abs_eq_zero, Complex.ext_iff]
  simp

theorem n1_nonneg (z : ℂ) : 0 ≤ n1 z := by unfold n1; positivity

theorem cj_set2 (p : NMat ℝ × NMat ℝ) (i j : ℕ) (x y : ℝ) :
    cj (set2 p.1 i j x, set2 p.2 i j y) = set2 (cj p) i j ⟨x, y⟩ := by
  funext i' j'
  unfold cj set2
  dsimp only
  split_ifs <;> rfl

theorem cv_set1 (p : NVec ℝ × NVec ℝ) (i : ℕ) (x y : ℝ) : cv (set1 p.1 i x, set1 p.2 i y) = set1 (cv p) i ⟨x, y⟩ := by
  funext i'
  unfold cv set1
  dsimp only
  split_ifs <;> rfl

/-- The pivot search in terms of complex numbers. -/
def pivotC (a : NMat ℂ) (k hi : ℕ) : ℕ := pivotc (fun i j => (a i j).re) (fun i j => (a i j).im) k hi

theorem pivotC_spec (a : NMat ℂ) {k hi : ℕ} (h : k < hi) :
    k ≤ pivotC a k hi ∧ pivotC a k hi < hi ∧ ∀ i, k ≤ i → i < hi → n1 (a i k) ≤ n1 (a (pivotC a k hi) k) := by
  unfold pivotC pivotc
  refine forRange_ind (I := fun h m => k ≤ m ∧ m < h ∧ ∀ i, k ≤ i → i < h → n1 (a i k) ≤ n1 (a m k)) h ?_ ?_
  · refine ⟨le_rfl, by omega, fun i h1 h2 => ?_⟩
    obtain rfl : i = k := by omega
    exact le_rfl
  · intro r m h1 h2 ⟨i1, i2, i3⟩
    simp only [RealFl.gt_eq, RealFl.abs_eq, decide_eq_true_eq]
    change _ ≤ (if n1 (a m k) < n1 (a r k) then r else m) ∧ (if n1 (a m k) < n1 (a r k) then r else m) < _ ∧
      ∀ i, k ≤ i → i < r + 1 → n1 (a i k) ≤ n1 (a (if n1 (a m k) < n1 (a r k) then r else m) k)
    split_ifs with hc
    · refine ⟨by omega, by omega, fun i j1 j2 => ?_⟩
      rcases Nat.lt_succ_iff_lt_or_eq.1 j2 with h | rfl
      · exact (i3 i j1 h).trans hc.le
      · exact le_rfl
    · refine ⟨i1, by omega, fun i j1 j2 => ?_⟩
      rcases Nat.lt_succ_iff_lt_or_eq.1 j2 with h | rfl
      · exact i3 i j1 h
      · exact not_lt.1 hc

theorem pivotCOk : PivotOk pivotC (fun e t => n1 e ≤ n1 t) where
  lo a k hi h := (pivotC_spec a h).1
  hi a k hi h := (pivotC_spec a h).2.1
  zero a k hi h h0 i h1 h2 := by
    have := (pivotC_spec a h).2.2 i h1 h2
    rw [h0, n1_zero.2 rfl] at this
    exact n1_zero.1 (le_antisymm this (n1_nonneg _))
  q a k hi h i h1 h2 := (pivotC_spec a h).2.2 i h1 h2
  q0 t := by rw [n1_zero.2 rfl]; exact n1_nonneg t

theorem scaleColc_eq (p : NMat ℝ × NMat ℝ) (k lo hi : ℕ) (tr ti : ℝ) :
    cj (scaleColc p k lo hi tr ti) = scaleK (cj p) k lo hi ⟨tr, ti⟩ := by
  unfold scaleColc scaleK
  refine forRange_map cj (fun p i => ?_) lo hi p
  rw [cj_set2]
  congr 1
  apply Complex.ext <;> simp [cj] <;> ring

theorem elimColc_eq (k m hi : ℕ) (p : NMat ℝ × NMat ℝ) (j : ℕ) :
    cj (elimColc k m hi p j) = elimK k m hi (cj p) j := by
  unfold elimColc elimK
  dsimp only
  have base : cj (set2 (set2 p.1 m j (p.1 k j)) k j (p.1 m j), set2 (set2 p.2 m j (p.2 k j)) k j (p.2 m j)) =
      set2 (set2 (cj p) m j (cj p k j)) k j (cj p m j) := by
    rw [cj_set2 (set2 p.1 m j (p.1 k j), set2 p.2 m j (p.2 k j)), cj_set2]; rfl
  rw [show (0.0 : ℝ) = 0 by norm_num]
  have hz : Fl.eq (Fl.abs (p.1 m j) + Fl.abs (p.2 m j)) 0 = decide (cj p m j = 0) := by
    change decide (n1 (cj p m j) = 0) = _
    exact decide_eq_decide.2 n1_zero
  rw [hz]
  by_cases h : cj p m j = 0
  · rw [if_pos (by simpa using h), base, h]
    simp only [mul_zero, add_zero]
    have : ∀ (a : NMat ℂ) (i j : ℕ), set2 a i j (a i j) = a := by
      intro a i j
      funext i' j'
      unfold set2
      split_ifs with h
      · rw [h.1, h.2]
      · rfl
    rw [forRange_id (fun a i => this a i j)]
  · rw [if_neg (by simpa using h), ← base]
    split_ifs with h1 h2
    · refine forRange_map cj (fun q i => ?_) _ _ _
      rw [cj_set2]
      congr 1
      have : p.2 m j = 0 := by simpa using h1
      apply Complex.ext <;> simp [cj, this]
    · refine forRange_map cj (fun q i => ?_) _ _ _
      rw [cj_set2]
      congr 1
      have : p.1 m j = 0 := by simpa using h2
      apply Complex.ext <;> simp [cj, this]
    · refine forRange_map cj (fun q i => ?_) _ _ _
      rw [cj_set2]
      congr 1
      apply Complex.ext <;> simp [cj] <;> ring

theorem swapPivotc_eq (n : ℕ) (st : LucSt ℝ) (k m : ℕ) : cst (swapPivotc n st k m) = swapK n (cst st) k m := by
  unfold swapPivotc swapK
  by_cases h : m = k
  · simp [h, cst]
  · simp only [ne_eq, h, not_false_eq_true, if_true]
    unfold cst
    dsimp only
    rw [cj_set2 (set2 st.ar m k (st.ar k k), set2 st.ai m k (st.ai k k)), cj_set2 (st.ar, st.ai)]
    rfl

theorem inv_eq (tr ti : ℝ) : (⟨tr / (tr * tr + ti * ti), -ti / (tr * tr + ti * ti)⟩ : ℂ) = (⟨tr, ti⟩ : ℂ)⁻¹ := by
  apply Complex.ext <;> simp [Complex.inv_re, Complex.inv_im, Complex.normSq_apply]

theorem deccBody_eq (n : ℕ) (hi : ℕ → ℕ) (st : LucSt ℝ) (k : ℕ) :
    cst (deccBody n hi st k) = bodyK pivotC n hi hi (cst st) k := by
  unfold deccBody bodyK
  have hr : (cst st).ret = st.ret := rfl
  rw [hr]
  cases st.ret with
  | some r => rfl
  | none =>
    dsimp only
    have hp : pivotc st.ar st.ai k (hi k) = pivotC (cst st).a k (hi k) := rfl
    rw [hp, ← swapPivotc_eq]
    generalize pivotC (cst st).a k (hi k) = m
    rw [show (0.0 : ℝ) = 0 by norm_num]
    have hz : Fl.eq (Fl.abs (st.ar m k) + Fl.abs (st.ai m k)) 0 = decide ((cst st).a m k = 0) := by
      change decide (n1 ((cst st).a m k) = 0) = _
      exact decide_eq_decide.2 n1_zero
    rw [hz]
    by_cases h : (cst st).a m k = 0
    · rw [if_pos (by simpa using h), if_pos h]; rfl
    · rw [if_neg (by simpa using h), if_neg h]
      generalize swapPivotc n st k m = st'
      have e : cj (forRange (k + 1) n (scaleColc (st'.ar, st'.ai) k (k + 1) (hi k)
          (st.ar m k / (st.ar m k * st.ar m k + st.ai m k * st.ai m k))
          (-st.ai m k / (st.ar m k * st.ar m k + st.ai m k * st.ai m k))) (elimColc k m (hi k))) =
          forRange (k + 1) n (scaleK (cst st').a k (k + 1) (hi k) ((cst st).a m k)⁻¹) (elimK k m (hi k)) := by
        rw [forRange_map cj (fun p j => elimColc_eq k m (hi k) p j), scaleColc_eq, inv_eq]
        rfl
      rw [← e]
      rfl

theorem deccEnd_eq (n : ℕ) (st : LucSt ℝ) :
    (cst (deccEnd n st).1, (deccEnd n st).2) = endK n (cst st) := by
  unfold deccEnd endK
  have hr : (cst st).ret = st.ret := rfl
  rw [hr]
  cases st.ret with
  | some r => rfl
  | none =>
    dsimp only
    rw [show (0.0 : ℝ) = 0 by norm_num]
    have hz : Fl.eq (Fl.abs (st.ar (n - 1) (n - 1)) + Fl.abs (st.ai (n - 1) (n - 1))) 0 =
        decide ((cst st).a (n - 1) (n - 1) = 0) := by
      change decide (n1 ((cst st).a (n - 1) (n - 1)) = 0) = _
      exact decide_eq_decide.2 n1_zero
    rw [hz]
    by_cases h : (cst st).a (n - 1) (n - 1) = 0
    · rw [if_pos (by simpa using h), if_pos h]; rfl
    · rw [if_neg (by simpa using h), if_neg h]

theorem decc_eq {n : ℕ} (hn : 1 ≤ n) (ar ai : NMat ℝ) (ip : ℕ → ℤ) :
    ∃ r, decc n ar ai ip = .ok r ∧
      (cst r.1, r.2) = decK pivotC n (fun _ => n) (fun _ => n) (cj (ar, ai)) ip := by
  unfold decc decK
  rw [if_neg (by omega)]
  refine ⟨_, rfl, ?_⟩
  rw [deccEnd_eq]
  congr 1
  have e := forRange_map cst (deccBody_eq n fun _ => n) 0 (n - 1) ⟨ar, ai, set1 ip (n - 1) 1, none⟩
  change _ = forRange 0 (n - 1) (cst _) _ at e
  by_cases h : n = 1
  · subst h; rw [if_neg (by simp), forRange_empty (by omega)]; rfl
  · rw [if_pos h, e]; rfl

theorem dechc_eq {n : ℕ} (hn : 1 ≤ n) (ar ai : NMat ℝ) (lb : ℕ) (hl : lb ≠ 0) (ip : ℕ → ℤ) :
    ∃ r, dechc n ar ai lb ip = .ok r ∧
      (cst r.1, r.2) = decK pivotC n (fun k => min n (lb + k + 1)) (fun k => min n (lb + k + 1)) (cj (ar, ai)) ip := by
  unfold dechc decK
  rw [if_neg (by omega)]
  refine ⟨_, rfl, ?_⟩
  rw [deccEnd_eq]
  congr 1
  have e := forRange_map cst (deccBody_eq n fun k => min n (lb + k + 1)) 0 (n - 1) ⟨ar, ai, set1 ip (n - 1) 1, none⟩
  change _ = forRange 0 (n - 1) (cst _) _ at e
  by_cases h : n = 1
  · subst h; rw [if_neg (by simp), forRange_empty (by omega)]; rfl
  · rw [if_pos ⟨h, hl⟩, e]; rfl

theorem fwdStepc_eq (ar ai : NMat ℝ) (ip : ℕ → ℤ) (hi : ℕ) (b : NVec ℝ × NVec ℝ) (k : ℕ) :
    cv (fwdStepc ar ai ip hi b k) = fwdK (cj (ar, ai)) ip hi (cv b) k := by
  unfold fwdStepc fwdK
  dsimp only
  generalize (ip k).toNat = m
  have base : cv (set1 (set1 b.1 m (b.1 k)) k (b.1 m), set1 (set1 b.2 m (b.2 k)) k (b.2 m)) =
      set1 (set1 (cv b) m (cv b k)) k (cv b m) := by
    rw [cv_set1 (set1 b.1 m (b.1 k), set1 b.2 m (b.2 k)), cv_set1]; rfl
  rw [← base]
  refine forRange_map cv (fun q i => ?_) _ _ _
  rw [cv_set1]
  congr 1
  apply Complex.ext <;> simp [cv, cj] <;> ring

theorem divDiagc_eq (ar ai : NMat ℝ) (b : NVec ℝ × NVec ℝ) (c : ℕ) :
    cv (divDiagc ar ai b c) = set1 (cv b) c (cv b c / cj (ar, ai) c c) := by
  unfold divDiagc
  dsimp only
  rw [cv_set1]
  congr 1
  rw [div_eq_mul_inv (cv b c)]
  apply Complex.ext
  · rw [Complex.mul_re, Complex.inv_re, Complex.inv_im, Complex.normSq_apply]
    change _ = b.1 c * (ar c c / (ar c c * ar c c + ai c c * ai c c)) - b.2 c * (-ai c c / (ar c c * ar c c + ai c c * ai c c))
    ring
  · rw [Complex.mul_im, Complex.inv_re, Complex.inv_im, Complex.normSq_apply]
    change _ = b.1 c * (-ai c c / (ar c c * ar c c + ai c c * ai c c)) + b.2 c * (ar c c / (ar c c * ar c c + ai c c * ai c c))
    ring

theorem backStepc_eq (ar ai : NMat ℝ) (c : ℕ) (b : NVec ℝ × NVec ℝ) :
    cv (backStepc ar ai c c b) = backK (cj (ar, ai)) c (cv b) := by
  unfold backStepc backK
  dsimp only
  have hd := divDiagc_eq ar ai b c
  have hc : cv (divDiagc ar ai b c) c = cv b c / cj (ar, ai) c c := by rw [hd]; simp [set1]
  rw [← hd, ← hc]
  refine forRange_map cv (fun q i => ?_) _ _ _
  rw [cv_set1]
  congr 1
  apply Complex.ext <;> simp [cv, cj] <;> ring

theorem solc_eq {n : ℕ} (hn : 1 ≤ n) (ar ai : NMat ℝ) (b : NVec ℝ × NVec ℝ) (ip : ℕ → ℤ) :
    cv (solc n ar ai b ip) = solK n (fun _ => n) (cj (ar, ai)) (cv b) ip := by
  unfold solc solK
  dsimp only
  obtain ⟨k, rfl⟩ : ∃ k, n = k + 1 := ⟨n - 1, by omega⟩
  rw [forRange_succ (Nat.zero_le _), show k + 1 - 1 - k = 0 by omega]
  have e0 : ∀ b : NVec ℝ × NVec ℝ, cv (divDiagc ar ai b 0) = backK (cj (ar, ai)) 0 (cv b) := fun b => by
    rw [divDiagc_eq]; unfold backK; rw [forRange_empty le_rfl]
  rw [e0]
  congr 1
  by_cases h : k = 0
  · subst h
    rw [if_neg (by simp), forRange_empty (by omega), forRange_empty (by omega)]
  · rw [if_pos (by simpa using h)]
    have hk : k + 1 - 1 = k := by omega
    rw [hk, ← forRange_map cv (f := fwdStepc ar ai ip (k + 1)) (fun b i => fwdStepc_eq ar ai ip (k + 1) b i)]
    generalize forRange 0 k b (fwdStepc ar ai ip (k + 1)) = c
    rw [← forRange_map cv (f := fun b i => backStepc ar ai (k - i) (k - i) b)
      (fun b i => backStepc_eq ar ai (k - i) b)]
    congr 1
    refine forRange_congr (fun s i _ hi => ?_) c
    rw [show k + 1 - i - 2 + 1 = k - i by omega]

end
end Linalg
end Cyphus
