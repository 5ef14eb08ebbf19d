import Verif.Proofs.RadauEnd
/-!
# The indices used by the linear solvers (any arithmetic)
-/

namespace Cyphus
namespace Linalg
set_option autoImplicit false
set_option linter.unusedSectionVars false
variable {F : Type} [Add F] [Sub F] [Mul F] [Div F] [Neg F] [OfScientific F] [Fl F]

/-- The pivots used by the solvers of size `n` are indices of rows. -/
def IpOk (n : ℕ) (ip : ℕ → ℤ) : Prop := ∀ k, k < n - 1 → 0 ≤ ip k ∧ ip k < n

theorem IpOk.set_last {n : ℕ} {ip : ℕ → ℤ} (h : IpOk n ip) (x : ℤ) : IpOk n (set1 ip (n - 1) x) := by
  intro k hk
  rw [set1, if_neg (by omega)]
  exact h k hk

theorem IpOk.set {n k m : ℕ} {ip : ℕ → ℤ} (h : IpOk n ip) (hm : m < n) : IpOk n (set1 ip k m) := by
  intro i hi
  rw [set1]
  split
  · exact ⟨by omega, by omega⟩
  · exact h i hi

theorem IpOk.decEnd {n : ℕ} {st : LuSt F} (h : IpOk n st.ip) : IpOk n (decEnd n st).1.ip := by
  unfold Linalg.decEnd
  split
  · exact h
  · split
    · exact h.set_last 0
    · exact h

theorem IpOk.dec {n : ℕ} {a : NMat F} {ip : ℕ → ℤ} {st : LuSt F} {ier : ℕ} (h : IpOk n ip)
    (hd : dec n a ip = .ok (st, ier)) : IpOk n st.ip := by
  unfold Linalg.dec at hd
  split at hd
  · cases hd
  · rename_i hn
    have h1 : IpOk n (if n ≠ 1 then forRange 0 (n - 1) { a := a, ip := set1 ip (n - 1) 1, ret := none } (decBody n)
        else { a := a, ip := set1 ip (n - 1) 1, ret := none } : LuSt F).ip := by
      split
      · refine forRange_inv (I := fun st : LuSt F => IpOk n st.ip) (h.set_last 1) ?_
        intro st k _ hk h
        have hp := (pivot_range st.a (show k < n by omega)).2
        have h1 : IpOk n (swapPivot n st k (pivot st.a k n)).ip := by
          simp only [swapPivot]
          split
          · exact (h.set hp).set_last _
          · exact h.set hp
        unfold decBody
        split
        · exact h
        · simp only
          split
          · exact h1.set_last 0
          · exact h1
      · exact h.set_last 1
    have h2 := h1.decEnd
    rw [Res.ok.inj hd] at h2
    exact h2

theorem IpOk.deccEnd {n : ℕ} {st : LucSt F} (h : IpOk n st.ip) : IpOk n (deccEnd n st).1.ip := by
  unfold Linalg.deccEnd
  split
  · exact h
  · split
    · exact h.set_last 0
    · exact h

theorem IpOk.decc {n : ℕ} {ar ai : NMat F} {ip : ℕ → ℤ} {st : LucSt F} {ier : ℕ} (h : IpOk n ip)
    (hd : decc n ar ai ip = .ok (st, ier)) : IpOk n st.ip := by
  unfold Linalg.decc at hd
  split at hd
  · cases hd
  · rename_i hn
    have h1 : IpOk n (if n ≠ 1 then forRange 0 (n - 1) { ar := ar, ai := ai, ip := set1 ip (n - 1) 1, ret := none }
        (deccBody n fun _ => n) else { ar := ar, ai := ai, ip := set1 ip (n - 1) 1, ret := none } : LucSt F).ip := by
      split
      · refine forRange_inv (I := fun st : LucSt F => IpOk n st.ip) (h.set_last 1) ?_
        intro st k _ hk h
        have hp := (pivotc_range st.ar st.ai (show k < n by omega)).2
        have h1 : IpOk n (swapPivotc n st k (pivotc st.ar st.ai k n)).ip := by
          simp only [swapPivotc]
          split
          · exact (h.set hp).set_last _
          · exact h.set hp
        unfold deccBody
        split
        · exact h
        · simp only
          split
          · exact h1.set_last 0
          · exact h1
      · exact h.set_last 1
    have h2 := h1.deccEnd
    rw [Res.ok.inj hd] at h2
    exact h2

/-! ### Backward reasoning about loops -/

theorem forRange_back {σ : Type} {I : σ → Prop} {lo hi : ℕ} {f : σ → ℕ → σ}
    (h1 : ∀ s i, lo ≤ i → i < hi → I (f s i) → I s) {s : σ} (h : I (forRange lo hi s f)) : I s := by
  by_cases hl : lo ≤ hi
  · induction hi, hl using Nat.le_induction with
    | base => rwa [forRange_empty le_rfl] at h
    | succ k hk ih =>
      rw [forRange_succ hk] at h
      exact ih (fun s i a b => h1 s i a (by omega)) (h1 _ k hk (by omega) h)
  · rwa [forRange_empty (by omega)] at h

/-- Exchange of two entries. -/
theorem all_swap {α : Type} {n k m : ℕ} {p : α → Prop} {b : ℕ → α} (hk : k < n) (hm : m < n)
    (h : ∀ i, i < n → p (set1 (set1 b m (b k)) k (b m) i)) : ∀ i, i < n → p (b i) := by
  intro i hi
  by_cases h1 : i = k
  · have := h m hm
    unfold set1 at this
    by_cases h2 : m = k
    · rw [if_pos h2] at this; rw [h1, ← h2]; exact this
    · rw [if_neg h2, if_pos rfl] at this; rw [h1]; exact this
  · by_cases h2 : i = m
    · have := h k hk
      unfold set1 at this
      rw [if_pos rfl] at this; rw [h2]; exact this
    · have := h i hi
      unfold set1 at this
      rwa [if_neg h1, if_neg h2] at this

end Linalg
end Cyphus
