import Verif.Proofs.ElimCode
import Verif.Arith.Real
/-!
# The real decompositions and solvers are the elimination of `Verif.Proofs.ElimCode`
-/

namespace Cyphus
namespace Linalg
set_option autoImplicit false
set_option linter.unusedSectionVars false
noncomputable section

theorem pivot_spec (a : NMat ℝ) {k hi : ℕ} (h : k < hi) :
    k ≤ pivot a k hi ∧ pivot a k hi < hi ∧ ∀ i, k ≤ i → i < hi → |a i k| ≤ |a (pivot a k hi) k| := by
  unfold pivot
  refine forRange_ind (I := fun h m => k ≤ m ∧ m < h ∧ ∀ i, k ≤ i → i < h → |a i k| ≤ |a m k|) h ?_ ?_
  · refine ⟨le_rfl, by omega, fun i h1 h2 => ?_⟩
    obtain rfl : i = k := by omega
    exact le_rfl
  · intro r m h1 h2 ⟨i1, i2, i3⟩
    simp only [RealFl.gt_eq, RealFl.abs_eq, decide_eq_true_eq]
    split_ifs with hc
    · refine ⟨by omega, by omega, fun i j1 j2 => ?_⟩
      rcases Nat.lt_succ_iff_lt_or_eq.1 j2 with h | rfl
      · exact (i3 i j1 h).trans hc.le
      · exact le_rfl
    · refine ⟨i1, by omega, fun i j1 j2 => ?_⟩
      rcases Nat.lt_succ_iff_lt_or_eq.1 j2 with h | rfl
      · exact i3 i j1 h
      · exact not_lt.1 hc

theorem pivotOk : PivotOk (K := ℝ) pivot (fun e t => |e| ≤ |t|) where
  lo a k hi h := (pivot_spec a h).1
  hi a k hi h := (pivot_spec a h).2.1
  zero a k hi h h0 i h1 h2 := by
    have := (pivot_spec a h).2.2 i h1 h2
    rw [h0, abs_zero] at this
    exact abs_nonpos_iff.1 this
  q a k hi h i h1 h2 := (pivot_spec a h).2.2 i h1 h2
  q0 t := by simp

theorem scaleCol_eq (a : NMat ℝ) (k lo hi : ℕ) (t : ℝ) : scaleCol a k lo hi t = scaleK a k lo hi t := by
  unfold scaleCol scaleK
  congr 1
  funext a i
  rw [mul_neg]

theorem set2_self {F : Type} (a : NMat F) (i j : ℕ) : set2 a i j (a i j) = a := by
  funext i' j'
  unfold set2
  split_ifs with h
  · rw [h.1, h.2]
  · rfl

theorem elimCol_eq (k m hi : ℕ) (a : NMat ℝ) (j : ℕ) : elimCol k m hi a j = elimK k m hi a j := by
  unfold elimCol elimK
  dsimp only
  rw [show (0.0 : ℝ) = 0 by norm_num]
  by_cases ht : a m j = 0
  · have e : (!Fl.eq (a m j) 0) = false := by simp [ht]
    rw [e, ht]
    simp only [Bool.false_eq_true, if_false, mul_zero, add_zero, set2_self]
    rw [forRange_id (fun _ _ => rfl)]
  · have e : (!Fl.eq (a m j) 0) = true := by simp [ht]
    rw [e, if_pos rfl]

/-- One iteration of both real decompositions. -/
theorem body_eq (n : ℕ) (hi : ℕ → ℕ) (st : LuSt ℝ) (k : ℕ) :
    (match st.ret with
    | some _ => st
    | none =>
      let m := pivot st.a k (hi k)
      let t := st.a m k
      let st := swapPivot n st k m
      if Fl.eq t 0.0 then { st with ip := set1 st.ip (n - 1) 0, ret := some k }
      else
        let t := 1.0 / t
        let a := scaleCol st.a k (k + 1) n t
        { st with a := forRange (k + 1) n a (elimCol k m (hi k)) }) = bodyK pivot n hi (fun _ => n) st k := by
  unfold bodyK
  cases st.ret with
  | some r => rfl
  | none =>
    dsimp only
    have e : ∀ st : LuSt ℝ, ∀ m, swapPivot n st k m = swapK n st k m := fun _ _ => rfl
    rw [e, scaleCol_eq, show (0.0 : ℝ) = 0 by norm_num, show (1.0 : ℝ) = 1 by norm_num, one_div]
    have e2 : elimCol (F := ℝ) k (pivot st.a k (hi k)) (hi k) = elimK k (pivot st.a k (hi k)) (hi k) :=
      funext fun a => funext fun j => elimCol_eq _ _ _ a j
    rw [e2]
    by_cases h : st.a (pivot st.a k (hi k)) k = 0
    · rw [if_pos h, if_pos (by simp [h])]
    · rw [if_neg h, if_neg (by simp [h])]

theorem decEnd_eq (n : ℕ) (st : LuSt ℝ) : decEnd n st = endK n st := by
  unfold decEnd endK
  cases st.ret with
  | some r => rfl
  | none =>
    dsimp only
    rw [show (0.0 : ℝ) = 0 by norm_num]
    by_cases h : st.a (n - 1) (n - 1) = 0
    · rw [if_pos h, if_pos (by simp [h])]
    · rw [if_neg h, if_neg (by simp [h])]

theorem dec_eq {n : ℕ} (hn : 1 ≤ n) (a : NMat ℝ) (ip : ℕ → ℤ) :
    dec n a ip = .ok (decK pivot n (fun _ => n) (fun _ => n) a ip) := by
  unfold dec decK
  rw [if_neg (by omega)]
  dsimp only
  rw [decEnd_eq]
  have e : decBody (F := ℝ) n = bodyK pivot n (fun _ => n) (fun _ => n) :=
    funext fun st => funext fun k => body_eq n (fun _ => n) st k
  rw [e]
  by_cases h : n = 1
  · subst h; rw [if_neg (by simp), forRange_empty (by omega)]
  · rw [if_pos h]

theorem dech_eq {n : ℕ} (hn : 1 ≤ n) (a : NMat ℝ) (lb : ℕ) (ip : ℕ → ℤ) :
    dech n a lb ip = .ok (decK pivot n (fun k => min n (lb + k + 1)) (fun _ => n) a ip) := by
  unfold dech decK
  rw [if_neg (by omega)]
  dsimp only
  rw [decEnd_eq]
  have e : dechBody (F := ℝ) n lb = bodyK pivot n (fun k => min n (lb + k + 1)) (fun _ => n) :=
    funext fun st => funext fun k => body_eq n (fun k => min n (lb + k + 1)) st k
  rw [e]
  by_cases h : n = 1
  · subst h; rw [if_neg (by simp), forRange_empty (by omega)]
  · rw [if_pos h]

theorem HiOk.band (n lb : ℕ) : HiOk n (fun k => min n (lb + k + 1)) (fun _ => n) := by
  constructor
  · intro k hk; omega
  · intro k; omega
  · intro j k h; omega
  · intro k; omega

theorem fwdStep_eq (a : NMat ℝ) (ip : ℕ → ℤ) (hi : ℕ) (b : NVec ℝ) (k : ℕ) :
    fwdStep a ip hi b k = fwdK a ip hi b k := rfl

theorem backStep_eq (a : NMat ℝ) {n k : ℕ} (hk : k < n - 1) (b : NVec ℝ) : backStep a n b k = backK a (n - 1 - k) b := by
  unfold backStep backK
  dsimp only
  have e : n - k - 2 + 1 = n - 1 - k := by omega
  rw [e]
  congr 1
  funext d i
  simp only [set1, if_true]
  congr 1
  ring

theorem solCore (n : ℕ) (hn : 1 ≤ n) (hi : ℕ → ℕ) (a : NMat ℝ) (b : NVec ℝ) (ip : ℕ → ℤ) :
    (let b :=
      if n ≠ 1 then
        let b := forRange 0 (n - 1) b fun b k => fwdStep a ip (hi k) b k
        forRange 0 (n - 1) b (backStep a n)
      else b
    set1 b 0 (b 0 / a 0 0)) = solK n hi a b ip := by
  unfold solK
  obtain ⟨k, rfl⟩ : ∃ k, n = k + 1 := ⟨n - 1, by omega⟩
  rw [forRange_succ (Nat.zero_le _), show k + 1 - 1 - k = 0 by omega]
  have e0 : ∀ b : NVec ℝ, set1 b 0 (b 0 / a 0 0) = backK a 0 b := fun b => by
    unfold backK; rw [forRange_empty le_rfl]
  dsimp only
  rw [e0]
  congr 1
  by_cases h : k = 0
  · subst h
    rw [if_neg (by simp), forRange_empty (by omega), forRange_empty (by omega)]
  · rw [if_pos (by simpa using h)]
    have : k + 1 - 1 = k := by omega
    rw [this]
    exact forRange_congr (fun s i _ hi => by rw [backStep_eq a (by omega), this]) _

theorem sol_eq {n : ℕ} (hn : 1 ≤ n) (a : NMat ℝ) (b : NVec ℝ) (ip : ℕ → ℤ) :
    sol n a b ip = solK n (fun _ => n) a b ip := solCore n hn (fun _ => n) a b ip

theorem solh_eq {n : ℕ} (hn : 1 ≤ n) (a : NMat ℝ) (lb : ℕ) (b : NVec ℝ) (ip : ℕ → ℤ) :
    solh n a lb b ip = solK n (fun k => min n (lb + k + 1)) a b ip := solCore n hn (fun k => min n (lb + k + 1)) a b ip

end
end Linalg
end Cyphus
