import Verif.Proofs.LuReal
import Verif.Proofs.LuComplex
import Verif.Arith.X
/-!
# The dense solvers on finite numbers

On finite numbers the decompositions never divide by zero, and the solvers do not either if the diagonal has no zero.
So the computation with special values is the computation with real numbers.
-/

namespace Cyphus
namespace Linalg
open X
set_option autoImplicit false
set_option linter.unusedSectionVars false
noncomputable section

/-- A real matrix among the matrices with special values. -/
def fm (a : NMat ℝ) : NMat X := fun i j => fin (a i j)
/-- A real vector among the vectors with special values. -/
def fw (b : NVec ℝ) : NVec X := fun i => fin (b i)

def lst (st : LuSt ℝ) : LuSt X := { a := fm st.a, ip := st.ip, ret := st.ret }
def lsc (st : LucSt ℝ) : LucSt X := { ar := fm st.ar, ai := fm st.ai, ip := st.ip, ret := st.ret }
def fmp (p : NMat ℝ × NMat ℝ) : NMat X × NMat X := (fm p.1, fm p.2)
def fwp (p : NVec ℝ × NVec ℝ) : NVec X × NVec X := (fw p.1, fw p.2)

theorem forRange_map_on {σ τ : Type} (g : σ → τ) {f : σ → ℕ → σ} {f' : τ → ℕ → τ} {lo hi : ℕ}
    (hf : ∀ s i, lo ≤ i → i < hi → g (f s i) = f' (g s) i) (s : σ) :
    forRange lo hi (g s) f' = g (forRange lo hi s f) := by
  by_cases h : lo ≤ hi
  · induction hi, h using Nat.le_induction with
    | base => rw [forRange_empty le_rfl, forRange_empty le_rfl]
    | succ k hk ih =>
      rw [forRange_succ hk, forRange_succ hk, ih fun s i h1 h2 => hf s i h1 (by omega), hf _ _ hk (by omega)]
  · rw [forRange_empty (by omega), forRange_empty (by omega)]

theorem eqz (x : ℝ) : Fl.eq x (0.0 : ℝ) = true ↔ x = 0 := by
  rw [RealFl.eq_eq, decide_eq_true_iff]; norm_num

theorem set2_fm (a : NMat ℝ) (i j : ℕ) (x : ℝ) : set2 (fm a) i j (fin x) = fm (set2 a i j x) := by
  funext i' j'
  unfold set2 fm
  dsimp only
  split <;> rfl

theorem set1_fw (b : NVec ℝ) (i : ℕ) (x : ℝ) : set1 (fw b) i (fin x) = fw (set1 b i x) := by
  funext i'
  unfold set1 fw
  dsimp only
  split <;> rfl

theorem pivot_fm (a : NMat ℝ) (k hi : ℕ) : pivot (fm a) k hi = pivot a k hi := rfl

theorem pivotc_fm (a b : NMat ℝ) (k hi : ℕ) : pivotc (fm a) (fm b) k hi = pivotc a b k hi := rfl

theorem swapPivot_lst (n : ℕ) (st : LuSt ℝ) (k m : ℕ) : swapPivot n (lst st) k m = lst (swapPivot n st k m) := by
  unfold swapPivot
  simp only
  split
  · simp only [lst, ← set2_fm]; rfl
  · rfl

theorem swapPivotc_lsc (n : ℕ) (st : LucSt ℝ) (k m : ℕ) : swapPivotc n (lsc st) k m = lsc (swapPivotc n st k m) := by
  unfold swapPivotc
  simp only
  split
  · simp only [lsc, ← set2_fm]; rfl
  · rfl

theorem scaleCol_fm (a : NMat ℝ) (k lo hi : ℕ) (t : ℝ) : scaleCol (fm a) k lo hi (fin t) = fm (scaleCol a k lo hi t) := by
  unfold scaleCol
  apply forRange_map_on fm
  intro a i _ _
  rw [← set2_fm]; rfl

theorem elimCol_fm (k m hi : ℕ) (a : NMat ℝ) (j : ℕ) : elimCol k m hi (fm a) j = fm (elimCol k m hi a j) := by
  unfold elimCol
  simp only
  have e : set2 (set2 (fm a) m j (fm a k j)) k j (fm a m j) = fm (set2 (set2 a m j (a k j)) k j (a m j)) := by
    rw [← set2_fm, ← set2_fm]; rfl
  have e2 : Fl.eq (fm a m j) (0.0 : X) = Fl.eq (a m j) (0.0 : ℝ) := rfl
  rw [e, e2]
  split
  · apply forRange_map_on fm
    intro a i _ _
    rw [← set2_fm]; rfl
  · rfl

theorem decBody_lst (n : ℕ) (st : LuSt ℝ) (k : ℕ) : decBody n (lst st) k = lst (decBody n st k) := by
  obtain ⟨a, ip, ret⟩ := st
  cases ret with
  | some r => rfl
  | none =>
    have e0 := swapPivot_lst n ⟨a, ip, none⟩ k (pivot a k n)
    by_cases ht : a (pivot a k n) k = 0
    · have h1 : decBody n ⟨a, ip, none⟩ k =
          { swapPivot n ⟨a, ip, none⟩ k (pivot a k n) with
            ip := set1 (swapPivot n ⟨a, ip, none⟩ k (pivot a k n)).ip (n - 1) 0, ret := some k } := by
        unfold decBody
        dsimp only
        rw [if_pos ((eqz _).2 ht)]
      have h2 : decBody n (lst ⟨a, ip, none⟩) k =
          { swapPivot n (lst ⟨a, ip, none⟩) k (pivot a k n) with
            ip := set1 (swapPivot n (lst ⟨a, ip, none⟩) k (pivot a k n)).ip (n - 1) 0, ret := some k } := by
        unfold decBody
        dsimp only [lst]
        rw [pivot_fm, if_pos]
        exact (eqz _).2 ht
      rw [h2, h1, e0]; rfl
    · have e3 : (1.0 : X) / fm a (pivot a k n) k = fin (1.0 / a (pivot a k n) k) := by
        rw [show (1.0 : X) = fin 1.0 from rfl]
        exact div_fin ht
      have h1 : decBody n ⟨a, ip, none⟩ k =
          { swapPivot n ⟨a, ip, none⟩ k (pivot a k n) with
            a := forRange (k + 1) n (scaleCol (swapPivot n ⟨a, ip, none⟩ k (pivot a k n)).a k (k + 1) n
              (1.0 / a (pivot a k n) k)) (elimCol k (pivot a k n) n) } := by
        unfold decBody
        dsimp only
        rw [if_neg (mt (eqz _).1 ht)]
      have h2 : decBody n (lst ⟨a, ip, none⟩) k =
          { swapPivot n (lst ⟨a, ip, none⟩) k (pivot a k n) with
            a := forRange (k + 1) n (scaleCol (swapPivot n (lst ⟨a, ip, none⟩) k (pivot a k n)).a k (k + 1) n
              (1.0 / fm a (pivot a k n) k)) (elimCol k (pivot a k n) n) } := by
        unfold decBody
        dsimp only [lst]
        rw [pivot_fm, if_neg]
        exact mt (eqz _).1 ht
      rw [h2, h1, e0, e3]
      have e4 : ∀ st : LuSt ℝ, (lst st).a = fm st.a := fun _ => rfl
      rw [e4, scaleCol_fm, forRange_map_on fm (fun a i _ _ => (elimCol_fm _ _ _ _ _).symm)]
      rfl

theorem decEnd_lst (n : ℕ) (st : LuSt ℝ) : decEnd n (lst st) = (lst (decEnd n st).1, (decEnd n st).2) := by
  obtain ⟨a, ip, ret⟩ := st
  cases ret with
  | some k => rfl
  | none =>
    by_cases ht : a (n - 1) (n - 1) = 0
    · have h1 : decEnd n ⟨a, ip, none⟩ = ({ (⟨a, ip, none⟩ : LuSt ℝ) with ip := set1 ip (n - 1) 0 }, n) := by
        unfold decEnd; exact if_pos ((eqz _).2 ht)
      have h2 : decEnd n (lst ⟨a, ip, none⟩) = ({ (⟨fm a, ip, none⟩ : LuSt X) with ip := set1 ip (n - 1) 0 }, n) := by
        unfold decEnd
        exact if_pos ((eqz _).2 ht)
      rw [h1, h2]; rfl
    · have h1 : decEnd n ⟨a, ip, none⟩ = ((⟨a, ip, none⟩ : LuSt ℝ), 0) := by
        unfold decEnd; exact if_neg (mt (eqz _).1 ht)
      have h2 : decEnd n (lst ⟨a, ip, none⟩) = ((⟨fm a, ip, none⟩ : LuSt X), 0) := by
        unfold decEnd
        exact if_neg (mt (eqz _).1 ht)
      rw [h1, h2]; rfl

theorem dec_fm {n : ℕ} {a : NMat ℝ} {ip : ℕ → ℤ} {st : LuSt ℝ} {c : ℕ} (h : dec n a ip = .ok (st, c)) :
    dec n (fm a) ip = .ok (lst st, c) := by
  unfold dec at h ⊢
  split at h
  · cases h
  · rename_i hn
    rw [if_neg hn]
    simp only [Res.ok.injEq] at h ⊢
    have e : ∀ st : LuSt ℝ, forRange 0 (n - 1) (lst st) (decBody n) = lst (forRange 0 (n - 1) st (decBody n)) :=
      fun st => forRange_map_on lst (fun st k _ _ => (decBody_lst n st k).symm) st
    have e' := e { a := a, ip := set1 ip (n - 1) 1, ret := none }
    simp only [lst] at e'
    have key : (if n ≠ 1 then forRange 0 (n - 1) { a := fm a, ip := set1 ip (n - 1) 1, ret := none } (decBody n)
        else { a := fm a, ip := set1 ip (n - 1) 1, ret := none }) =
        lst (if n ≠ 1 then forRange 0 (n - 1) { a := a, ip := set1 ip (n - 1) 1, ret := none } (decBody n)
        else { a := a, ip := set1 ip (n - 1) 1, ret := none }) := by
      split
      · exact e'
      · rfl
    rw [key, decEnd_lst, h]

/-! ### The real solver -/

theorem fwdStep_fw (a : NMat ℝ) (ip : ℕ → ℤ) (hi : ℕ) (b : NVec ℝ) (k : ℕ) :
    fwdStep (fm a) ip hi (fw b) k = fw (fwdStep a ip hi b k) := by
  unfold fwdStep
  simp only
  have e : set1 (set1 (fw b) (ip k).toNat (fw b k)) k (fw b (ip k).toNat) =
      fw (set1 (set1 b (ip k).toNat (b k)) k (b (ip k).toNat)) := by
    rw [← set1_fw, ← set1_fw]; rfl
  rw [e]
  apply forRange_map_on fw
  intro b i _ _
  rw [← set1_fw]; rfl

theorem backStep_fw {a : NMat ℝ} {n k : ℕ} (h : a (n - k - 2 + 1) (n - k - 2 + 1) ≠ 0) (b : NVec ℝ) :
    backStep (fm a) n (fw b) k = fw (backStep a n b k) := by
  unfold backStep
  simp only
  have e : set1 (fw b) (n - k - 2 + 1) (fw b (n - k - 2 + 1) / fm a (n - k - 2 + 1) (n - k - 2 + 1)) =
      fw (set1 b (n - k - 2 + 1) (b (n - k - 2 + 1) / a (n - k - 2 + 1) (n - k - 2 + 1))) := by
    rw [← set1_fw]
    congr 1
    exact div_fin h
  rw [e]
  apply forRange_map_on fw
  intro b i _ _
  rw [← set1_fw]; rfl

theorem sol_fw {n : ℕ} (hn : 1 ≤ n) {a : NMat ℝ} (h : ∀ i, i < n → a i i ≠ 0) (b : NVec ℝ) (ip : ℕ → ℤ) :
    sol n (fm a) (fw b) ip = fw (sol n a b ip) := by
  have last : ∀ b : NVec ℝ, set1 (fw b) 0 (fw b 0 / fm a 0 0) = fw (set1 b 0 (b 0 / a 0 0)) := by
    intro b
    rw [← set1_fw]
    congr 1
    exact div_fin (h 0 (by omega))
  unfold sol
  simp only
  split
  · rw [forRange_map_on fw (fun b k _ _ => (fwdStep_fw a ip n b k).symm),
      forRange_map_on fw (fun b k _ hk => (backStep_fw (h _ (by omega)) b).symm)]
    exact last _
  · exact last _

/-! ### The complex decomposition and solver -/

theorem scaleColc_fm (p : NMat ℝ × NMat ℝ) (k lo hi : ℕ) (tr ti : ℝ) :
    scaleColc (fmp p) k lo hi (fin tr) (fin ti) = fmp (scaleColc p k lo hi tr ti) := by
  unfold scaleColc
  apply forRange_map_on fmp
  intro p i _ _
  simp only [fmp, ← set2_fm]; rfl

theorem elimColc_fm (k m hi : ℕ) (p : NMat ℝ × NMat ℝ) (j : ℕ) :
    elimColc k m hi (fmp p) j = fmp (elimColc k m hi p j) := by
  unfold elimColc
  simp only
  have e : ∀ a : NMat ℝ, set2 (set2 (fm a) m j (fm a k j)) k j (fm a m j) = fm (set2 (set2 a m j (a k j)) k j (a m j)) := by
    intro a
    rw [← set2_fm, ← set2_fm]; rfl
  simp only [fmp, e]
  have e2 : Fl.eq (Fl.abs (fm p.1 m j) + Fl.abs (fm p.2 m j)) (0.0 : X) =
    Fl.eq (Fl.abs (p.1 m j) + Fl.abs (p.2 m j)) (0.0 : ℝ) := rfl
  have e3 : ∀ a : NMat ℝ, Fl.eq (fm a m j) (0.0 : X) = Fl.eq (a m j) (0.0 : ℝ) := fun a => rfl
  rw [e2, e3, e3]
  split
  · rfl
  · split
    · refine forRange_map_on fmp ?_ (set2 (set2 p.1 m j (p.1 k j)) k j (p.1 m j), set2 (set2 p.2 m j (p.2 k j)) k j (p.2 m j))
      intro p i _ _
      simp only [fmp, ← set2_fm]; rfl
    · split
      · refine forRange_map_on fmp ?_ (set2 (set2 p.1 m j (p.1 k j)) k j (p.1 m j), set2 (set2 p.2 m j (p.2 k j)) k j (p.2 m j))
        intro p i _ _
        simp only [fmp, ← set2_fm]; rfl
      · refine forRange_map_on fmp ?_ (set2 (set2 p.1 m j (p.1 k j)) k j (p.1 m j), set2 (set2 p.2 m j (p.2 k j)) k j (p.2 m j))
        intro p i _ _
        simp only [fmp, ← set2_fm]; rfl

theorem abs_pair_eq (x y : ℝ) : Fl.eq (Fl.abs x + Fl.abs y) (0.0 : ℝ) = decide (x * x + y * y = 0) := by
  simp only [RealFl.eq_eq, RealFl.abs_eq]
  congr 1
  norm_num
  constructor
  · intro h
    have h1 : x = 0 := abs_eq_zero.1 (by nlinarith [abs_nonneg x, abs_nonneg y])
    have h2 : y = 0 := abs_eq_zero.1 (by nlinarith [abs_nonneg x, abs_nonneg y])
    rw [h1, h2]; norm_num
  · intro h
    have h1 : x = 0 := by nlinarith [mul_self_nonneg x, mul_self_nonneg y]
    have h2 : y = 0 := by nlinarith [mul_self_nonneg x, mul_self_nonneg y]
    rw [h1, h2]; norm_num

theorem deccBody_lsc (n : ℕ) (hi : ℕ → ℕ) (st : LucSt ℝ) (k : ℕ) :
    deccBody n hi (lsc st) k = lsc (deccBody n hi st k) := by
  obtain ⟨ar, ai, ip, ret⟩ := st
  cases ret with
  | some r => rfl
  | none =>
    have e0 := swapPivotc_lsc n ⟨ar, ai, ip, none⟩ k (pivotc ar ai k (hi k))
    by_cases hd : ar (pivotc ar ai k (hi k)) k * ar (pivotc ar ai k (hi k)) k +
        ai (pivotc ar ai k (hi k)) k * ai (pivotc ar ai k (hi k)) k = 0
    · have hc : Fl.eq (Fl.abs (ar (pivotc ar ai k (hi k)) k) + Fl.abs (ai (pivotc ar ai k (hi k)) k)) (0.0 : ℝ) = true := by
        rw [abs_pair_eq]; exact decide_eq_true hd
      have h1 : deccBody n hi ⟨ar, ai, ip, none⟩ k =
          { swapPivotc n ⟨ar, ai, ip, none⟩ k (pivotc ar ai k (hi k)) with
            ip := set1 (swapPivotc n ⟨ar, ai, ip, none⟩ k (pivotc ar ai k (hi k))).ip (n - 1) 0, ret := some k } := by
        unfold deccBody
        dsimp only
        rw [if_pos hc]
      have h2 : deccBody n hi (lsc ⟨ar, ai, ip, none⟩) k =
          { swapPivotc n (lsc ⟨ar, ai, ip, none⟩) k (pivotc ar ai k (hi k)) with
            ip := set1 (swapPivotc n (lsc ⟨ar, ai, ip, none⟩) k (pivotc ar ai k (hi k))).ip (n - 1) 0,
            ret := some k } := by
        unfold deccBody
        dsimp only [lsc]
        rw [pivotc_fm, if_pos]
        exact hc
      rw [h2, h1, e0]; rfl
    · have hc : ¬ Fl.eq (Fl.abs (ar (pivotc ar ai k (hi k)) k) + Fl.abs (ai (pivotc ar ai k (hi k)) k)) (0.0 : ℝ) = true := by
        rw [abs_pair_eq]; exact fun h => hd (of_decide_eq_true h)
      have h1 : deccBody n hi ⟨ar, ai, ip, none⟩ k =
          { swapPivotc n ⟨ar, ai, ip, none⟩ k (pivotc ar ai k (hi k)) with
            ar := (forRange (k + 1) n (scaleColc ((swapPivotc n ⟨ar, ai, ip, none⟩ k (pivotc ar ai k (hi k))).ar,
              (swapPivotc n ⟨ar, ai, ip, none⟩ k (pivotc ar ai k (hi k))).ai) k (k + 1) (hi k)
              (ar (pivotc ar ai k (hi k)) k / (ar (pivotc ar ai k (hi k)) k * ar (pivotc ar ai k (hi k)) k +
                ai (pivotc ar ai k (hi k)) k * ai (pivotc ar ai k (hi k)) k))
              (-ai (pivotc ar ai k (hi k)) k / (ar (pivotc ar ai k (hi k)) k * ar (pivotc ar ai k (hi k)) k +
                ai (pivotc ar ai k (hi k)) k * ai (pivotc ar ai k (hi k)) k)))
              (elimColc k (pivotc ar ai k (hi k)) (hi k))).1
            ai := (forRange (k + 1) n (scaleColc ((swapPivotc n ⟨ar, ai, ip, none⟩ k (pivotc ar ai k (hi k))).ar,
              (swapPivotc n ⟨ar, ai, ip, none⟩ k (pivotc ar ai k (hi k))).ai) k (k + 1) (hi k)
              (ar (pivotc ar ai k (hi k)) k / (ar (pivotc ar ai k (hi k)) k * ar (pivotc ar ai k (hi k)) k +
                ai (pivotc ar ai k (hi k)) k * ai (pivotc ar ai k (hi k)) k))
              (-ai (pivotc ar ai k (hi k)) k / (ar (pivotc ar ai k (hi k)) k * ar (pivotc ar ai k (hi k)) k +
                ai (pivotc ar ai k (hi k)) k * ai (pivotc ar ai k (hi k)) k)))
              (elimColc k (pivotc ar ai k (hi k)) (hi k))).2 } := by
        unfold deccBody
        dsimp only
        rw [if_neg hc]
      have h2 : deccBody n hi (lsc ⟨ar, ai, ip, none⟩) k =
          { swapPivotc n (lsc ⟨ar, ai, ip, none⟩) k (pivotc ar ai k (hi k)) with
            ar := (forRange (k + 1) n (scaleColc ((swapPivotc n (lsc ⟨ar, ai, ip, none⟩) k (pivotc ar ai k (hi k))).ar,
              (swapPivotc n (lsc ⟨ar, ai, ip, none⟩) k (pivotc ar ai k (hi k))).ai) k (k + 1) (hi k)
              (fin (ar (pivotc ar ai k (hi k)) k / (ar (pivotc ar ai k (hi k)) k * ar (pivotc ar ai k (hi k)) k +
                ai (pivotc ar ai k (hi k)) k * ai (pivotc ar ai k (hi k)) k)))
              (fin (-ai (pivotc ar ai k (hi k)) k / (ar (pivotc ar ai k (hi k)) k * ar (pivotc ar ai k (hi k)) k +
                ai (pivotc ar ai k (hi k)) k * ai (pivotc ar ai k (hi k)) k))))
              (elimColc k (pivotc ar ai k (hi k)) (hi k))).1
            ai := (forRange (k + 1) n (scaleColc ((swapPivotc n (lsc ⟨ar, ai, ip, none⟩) k (pivotc ar ai k (hi k))).ar,
              (swapPivotc n (lsc ⟨ar, ai, ip, none⟩) k (pivotc ar ai k (hi k))).ai) k (k + 1) (hi k)
              (fin (ar (pivotc ar ai k (hi k)) k / (ar (pivotc ar ai k (hi k)) k * ar (pivotc ar ai k (hi k)) k +
                ai (pivotc ar ai k (hi k)) k * ai (pivotc ar ai k (hi k)) k)))
              (fin (-ai (pivotc ar ai k (hi k)) k / (ar (pivotc ar ai k (hi k)) k * ar (pivotc ar ai k (hi k)) k +
                ai (pivotc ar ai k (hi k)) k * ai (pivotc ar ai k (hi k)) k))))
              (elimColc k (pivotc ar ai k (hi k)) (hi k))).2 } := by
        rw [← div_fin hd, ← div_fin hd]
        unfold deccBody
        dsimp only [lsc]
        rw [pivotc_fm, if_neg]
        · rfl
        · exact hc
      have e4 : ∀ st : LucSt ℝ, ((lsc st).ar, (lsc st).ai) = fmp (st.ar, st.ai) := fun _ => rfl
      rw [h2, h1, e0, e4, scaleColc_fm, forRange_map_on fmp (fun p j _ _ => (elimColc_fm _ _ _ p j).symm)]
      rfl

theorem deccEnd_lsc (n : ℕ) (st : LucSt ℝ) : deccEnd n (lsc st) = (lsc (deccEnd n st).1, (deccEnd n st).2) := by
  obtain ⟨ar, ai, ip, ret⟩ := st
  cases ret with
  | some k => rfl
  | none =>
    by_cases hc : Fl.eq (Fl.abs (ar (n - 1) (n - 1)) + Fl.abs (ai (n - 1) (n - 1))) (0.0 : ℝ) = true
    · have h1 : deccEnd n ⟨ar, ai, ip, none⟩ = ({ (⟨ar, ai, ip, none⟩ : LucSt ℝ) with ip := set1 ip (n - 1) 0 }, n) := by
        unfold deccEnd; exact if_pos hc
      have h2 : deccEnd n (lsc ⟨ar, ai, ip, none⟩) =
          ({ (⟨fm ar, fm ai, ip, none⟩ : LucSt X) with ip := set1 ip (n - 1) 0 }, n) := by
        unfold deccEnd; exact if_pos hc
      rw [h1, h2]; rfl
    · have h1 : deccEnd n ⟨ar, ai, ip, none⟩ = ((⟨ar, ai, ip, none⟩ : LucSt ℝ), 0) := by
        unfold deccEnd; exact if_neg hc
      have h2 : deccEnd n (lsc ⟨ar, ai, ip, none⟩) = ((⟨fm ar, fm ai, ip, none⟩ : LucSt X), 0) := by
        unfold deccEnd; exact if_neg hc
      rw [h1, h2]; rfl

theorem decc_fm {n : ℕ} {a b : NMat ℝ} {ip : ℕ → ℤ} {st : LucSt ℝ} {c : ℕ} (h : decc n a b ip = .ok (st, c)) :
    decc n (fm a) (fm b) ip = .ok (lsc st, c) := by
  unfold decc at h ⊢
  split at h
  · cases h
  · rename_i hn
    rw [if_neg hn]
    simp only [Res.ok.injEq] at h ⊢
    have e' := forRange_map_on (lo := 0) (hi := n - 1) lsc (fun st k _ _ => (deccBody_lsc n (fun _ => n) st k).symm)
      { ar := a, ai := b, ip := set1 ip (n - 1) 1, ret := none }
    simp only [lsc] at e'
    have key : (if n ≠ 1 then forRange 0 (n - 1) { ar := fm a, ai := fm b, ip := set1 ip (n - 1) 1, ret := none }
          (deccBody n fun _ => n)
        else { ar := fm a, ai := fm b, ip := set1 ip (n - 1) 1, ret := none }) =
        lsc (if n ≠ 1 then forRange 0 (n - 1) { ar := a, ai := b, ip := set1 ip (n - 1) 1, ret := none }
          (deccBody n fun _ => n)
        else { ar := a, ai := b, ip := set1 ip (n - 1) 1, ret := none }) := by
      split
      · exact e'
      · rfl
    rw [key, deccEnd_lsc, h]

theorem fwdStepc_fw (ar ai : NMat ℝ) (ip : ℕ → ℤ) (hi : ℕ) (b : NVec ℝ × NVec ℝ) (k : ℕ) :
    fwdStepc (fm ar) (fm ai) ip hi (fwp b) k = fwp (fwdStepc ar ai ip hi b k) := by
  unfold fwdStepc
  simp only
  have e : ∀ b : NVec ℝ, set1 (set1 (fw b) (ip k).toNat (fw b k)) k (fw b (ip k).toNat) =
      fw (set1 (set1 b (ip k).toNat (b k)) k (b (ip k).toNat)) := by
    intro b
    rw [← set1_fw, ← set1_fw]; rfl
  simp only [fwp, e]
  refine forRange_map_on fwp ?_ (set1 (set1 b.1 (ip k).toNat (b.1 k)) k (b.1 (ip k).toNat), set1 (set1 b.2 (ip k).toNat (b.2 k)) k (b.2 (ip k).toNat))
  intro b i _ _
  simp only [fwp, ← set1_fw]; rfl

theorem divDiagc_fw {ar ai : NMat ℝ} {kb : ℕ} (h : ar kb kb * ar kb kb + ai kb kb * ai kb kb ≠ 0) (b : NVec ℝ × NVec ℝ) :
    divDiagc (fm ar) (fm ai) (fwp b) kb = fwp (divDiagc ar ai b kb) := by
  unfold divDiagc
  simp only [fwp, ← set1_fw]
  congr 2 <;> exact div_fin h

theorem backStepc_fw {ar ai : NMat ℝ} (hi kb : ℕ) (h : ar kb kb * ar kb kb + ai kb kb * ai kb kb ≠ 0)
    (b : NVec ℝ × NVec ℝ) : backStepc (fm ar) (fm ai) hi kb (fwp b) = fwp (backStepc ar ai hi kb b) := by
  unfold backStepc
  simp only
  rw [divDiagc_fw h]
  apply forRange_map_on fwp
  intro b i _ _
  simp only [fwp, ← set1_fw]; rfl

theorem solc_fw {n : ℕ} (hn : 1 ≤ n) {ar ai : NMat ℝ} (h : ∀ i, i < n → ar i i * ar i i + ai i i * ai i i ≠ 0)
    (b : NVec ℝ × NVec ℝ) (ip : ℕ → ℤ) : solc n (fm ar) (fm ai) (fwp b) ip = fwp (solc n ar ai b ip) := by
  unfold solc
  simp only
  split
  · rw [forRange_map_on fwp (fun b k _ _ => (fwdStepc_fw ar ai ip n b k).symm),
      forRange_map_on fwp (fun b k _ hk => (backStepc_fw _ _ (h _ (by omega)) b).symm)]
    exact divDiagc_fw (h 0 (by omega)) _
  · exact divDiagc_fw (h 0 (by omega)) _

end
end Linalg
end Cyphus
