import Verif.Linalg.Banded
import Verif.Props.LinearSolve
/-!
# C72: the banded solvers and the Hessenberg reduction
-/

namespace Cyphus
open Linalg Spec
set_option autoImplicit false
set_option linter.unusedSectionVars false

/-- `a` is the band storage of the `n × n` matrix `A` with `lb` subdiagonals and `ub` superdiagonals that `decb` and
`decbc` expect: the diagonal is row `lb + ub`, column `j` of `A` is in column `j`. -/
def Spec.IsBand {F : Type} (n lb ub : ℕ) (A a : ℕ → ℕ → F) : Prop :=
  ∀ i j, i < n → j < n → i ≤ j + lb → j ≤ i + ub → a (i + (lb + ub) - j) j = A i j

section anyArithmetic
variable {F : Type} [Add F] [Sub F] [Mul F] [Div F] [Neg F] [OfScientific F] [Fl F]

/-- A loop preserves what its body preserves. -/
theorem Linalg.forRange_keeps {σ : Type} {I : σ → Prop} {lo hi : ℕ} {s : σ} {f : σ → ℕ → σ} (h0 : I s)
    (h1 : ∀ s i, lo ≤ i → i < hi → I s → I (f s i)) : I (forRange lo hi s f) := by
  by_cases h : lo ≤ hi
  · exact forRange_ind (I := fun _ s => I s) h h0 (fun i s h2 h3 h4 => h1 s i h2 h3 h4)
  · rw [forRange_empty (by omega)]; exact h0

theorem Linalg.zeroFill_apply (n ub : ℕ) (a : NMat F) (i j : ℕ) : zeroFill n 1 ub a (i + 1) j = a (i + 1) j := by
  unfold zeroFill
  split
  · refine forRange_keeps (I := fun b : NMat F => b (i + 1) j = a (i + 1) j) rfl ?_
    intro b k _ _ hb
    change set2 b 0 k 0.0 (i + 1) j = _
    simpa [set2] using hb
  · rfl

/-- The first `k` passes of `decb` for a tridiagonal matrix. -/
theorem Linalg.decb_loop {n : ℕ} (hn : 2 ≤ n) {a : NMat F} {ip : ℕ → ℤ}
    (h0 : ∀ k, k < n - 1 → Fl.eq (a 2 k) 0.0 = false) :
    let st := forRange 0 (n - 1) ⟨⟨zeroFill n 1 1 a, ip, none⟩, 0⟩ (decbBody n 1 1)
    st.ret = none ∧ (∀ j, st.a 2 j = a 2 j) ∧ (∀ j, st.a 1 j = a 1 j) ∧
      (∀ j, st.a 3 j = if j < n - 1 then a 3 j * -(1.0 / a 2 j) else a 3 j) ∧ (∀ i, i < n - 1 → st.ip i = i) := by
  intro st
  have := forRange_ind (I := fun k (st : BandSt F) => st.ret = none ∧ (∀ j, st.a 2 j = a 2 j) ∧ (∀ j, st.a 1 j = a 1 j) ∧
      (∀ j, st.a 3 j = if j < k then a 3 j * -(1.0 / a 2 j) else a 3 j) ∧ (∀ i, i < k → st.ip i = i) ∧ st.ju ≤ k + 1)
    (lo := 0) (hi := n - 1) (by omega) (s := ⟨⟨zeroFill n 1 1 a, ip, none⟩, 0⟩) (f := decbBody n 1 1)
    ⟨rfl, fun j => zeroFill_apply n 1 a 1 j, fun j => zeroFill_apply n 1 a 0 j, fun j => by simpa using zeroFill_apply n 1 a 2 j,
      by simp, by simp⟩ ?_
  · obtain ⟨h1, h2, h3, h4, h5, -⟩ := this
    exact ⟨h1, h2, h3, h4, h5⟩
  · rintro k s - hk ⟨h1, h2, h3, h4, h5, h6⟩
    have hp : pivotb s.a k 2 3 = 2 := rfl
    have hm : min 1 (n - k - 1) = 1 := by omega
    have hju : min (max s.ju (1 + k + 1)) n = k + 2 := by omega
    have he : Fl.eq (s.a 2 k) 0.0 = false := by rw [h2]; exact h0 k hk
    have e : decbBody n 1 1 s k = { s with
        a := set2 s.a 3 k (s.a 3 k * -(1.0 / s.a 2 k)), ip := set1 s.ip k k, ju := k + 2 } := by
      have hc : forRange (k + 1) (k + 2) (set2 s.a 3 k (s.a 3 k * -(1.0 / s.a 2 k)), 2)
          (fun p j => (elimColb k 2 3 p.1 (p.2 - 1) j, p.2 - 1)) = (set2 s.a 3 k (s.a 3 k * -(1.0 / s.a 2 k)), 1) := by
        rw [show k + 2 = (k + 1) + 1 by omega, forRange_succ le_rfl, forRange_empty le_rfl]
        simp [elimColb, forRange_empty]
      have hs : forRange 3 4 s.a (fun a i => set2 a i k (a i k * -(1.0 / s.a 2 k))) =
          set2 s.a 3 k (s.a 3 k * -(1.0 / s.a 2 k)) := rfl
      have hkk : ((2 + k - 2 : ℕ) : ℤ) = k := by rw [show 2 + k - 2 = k by omega]
      have hset : (set1 s.ip k (k : ℤ) k).toNat = k := by simp [set1]
      unfold decbBody
      simp only [h1, hm, Nat.reduceAdd, hp, he, ne_eq, not_true_eq_false, if_false, hkk, hset, Bool.false_eq_true, hju, hs]
      rw [if_pos (by omega), hc]
    rw [e]
    refine ⟨h1, fun j => ?_, fun j => ?_, fun j => ?_, fun i hi => ?_, by simp⟩
    · simpa [set2] using h2 j
    · simpa [set2] using h3 j
    · simp only [set2, true_and]
      by_cases hj : j = k
      · subst hj; rw [if_pos rfl, if_pos (by omega), h2, h4, if_neg (by omega)]
      · rw [if_neg hj, h4]
        by_cases h : j < k
        · rw [if_pos h, if_pos (by omega)]
        · rw [if_neg h, if_neg (by omega)]
    · simp only [set1]
      by_cases h : i = k
      · rw [if_pos h, h]
      · rw [if_neg h]; exact h5 i (by omega)

/-- **C72** (any arithmetic). `decb` does not decompose tridiagonal matrices: if no diagonal entry is zero it reports
success, never interchanges rows, and leaves the diagonal and the superdiagonal as they are; only the subdiagonal is
replaced by multipliers. -/
theorem C72_decb_tridiagonal {n : ℕ} (hn : 2 ≤ n) {A a : NMat F} (ha : IsBand n 1 1 A a) (ip : ℕ → ℤ)
    (hd : ∀ k, k < n → Fl.eq (A k k) 0.0 = false) :
    ∃ st : LuSt F, decb n a 1 1 ip = .ok (st, 0) ∧ (∀ k, k < n - 1 → st.ip k = k) ∧
      (∀ k, k < n → st.a 2 k = A k k) ∧ (∀ k, k + 1 < n → st.a 1 (k + 1) = A k (k + 1)) ∧
      ∀ k, k + 1 < n → st.a 3 k = A (k + 1) k * -(1.0 / A k k) := by
  have d : ∀ k, k < n → a 2 k = A k k := fun k hk => by
    simpa using ha k k hk hk (by omega) (by omega)
  have u : ∀ k, k + 1 < n → a 1 (k + 1) = A k (k + 1) := fun k hk => by
    have := ha k (k + 1) (by omega) hk (by omega) (by omega)
    rwa [show k + (1 + 1) - (k + 1) = 1 by omega] at this
  have l : ∀ k, k + 1 < n → a 3 k = A (k + 1) k := fun k hk => by
    have := ha (k + 1) k hk (by omega) (by omega) (by omega)
    rwa [show k + 1 + (1 + 1) - k = 3 by omega] at this
  obtain ⟨h1, h2, h3, h4, h5⟩ := decb_loop hn (a := a) (ip := set1 ip (n - 1) 1)
    (fun k hk => by rw [d k (by omega)]; exact hd k (by omega))
  refine ⟨_, ?_, h5, fun k hk => (h2 k).trans (d k hk), fun k hk => (h3 (k + 1)).trans (u k hk), fun k hk => ?_⟩
  · unfold decb
    rw [if_neg (by omega)]
    dsimp only
    rw [if_pos (by omega), h1]
    dsimp only
    rw [show 1 + 1 = 2 from rfl, h2, d _ (by omega), hd _ (by omega)]
    rfl
  · rw [h4, if_pos (by omega), l k hk, d k (by omega)]

theorem Linalg.back_panic {α : Type} {n md : ℕ} {f : α → ℕ → Res α} (hn : 2 ≤ n)
    (h : ∀ b k, (md < n - k - 1 → f b k = .panic) ∧ (n - k - 1 ≤ md → ∃ b', f b k = .ok b')) (b : α) :
    (md < n - 1 → forRange 0 (n - 1) (.ok b) (fun (r : Res α) k => r.bind fun b => f b k) = .panic) ∧
    (n - 1 ≤ md → ∃ b', forRange 0 (n - 1) (.ok b) (fun (r : Res α) k => r.bind fun b => f b k) = .ok b') := by
  constructor
  · intro hm
    have := forRange_ind (I := fun k (r : Res α) => (k = 0 → ∃ c, r = .ok c) ∧ (1 ≤ k → r = .panic)) (lo := 0) (hi := n - 1) (by omega)
      (s := (.ok b : Res α)) (f := fun (r : Res α) k => r.bind fun b => f b k) ⟨fun _ => ⟨b, rfl⟩, by simp⟩ ?_
    · exact this.2 (by omega)
    · rintro i r - hi ⟨hr0, hr⟩
      refine ⟨by omega, fun _ => ?_⟩
      by_cases h0 : 1 ≤ i
      · rw [hr h0]; rfl
      · have h0 : i = 0 := by omega
        subst h0
        obtain ⟨c, rfl⟩ := hr0 rfl
        exact (h c 0).1 (by omega)
  · intro hm
    refine forRange_keeps (I := fun r : Res α => ∃ b', r = .ok b') ⟨b, rfl⟩ ?_
    rintro r i - - ⟨c, rfl⟩
    exact (h c i).2 (by omega)

/-- **C72** (any arithmetic, overflow checks on). `solb` panics whenever the band is narrower than the matrix (in
particular for diagonal matrices), and for no other sizes. -/
theorem C72_solb_panics {n : ℕ} (hn : 1 ≤ n) (a : NMat F) (lb ub : ℕ) (b : NVec F) (ip : ℕ → ℤ) :
    (solb n a lb ub b ip = .panic ↔ lb + ub = 0 ∨ lb + ub < n - 1) ∧ solb n a lb ub b ip ≠ .timeout := by
  unfold solb
  dsimp only
  by_cases h0 : lb + ub = 0
  · rw [if_pos (.inl h0)]; simp [h0]
  · rw [if_neg (by omega)]
    by_cases h1 : n = 1
    · subst h1; simp; omega
    · rw [if_pos h1]
      generalize (if lb ≠ 0 then _ else b) = b'
      obtain ⟨g1, g2⟩ := back_panic (n := n) (md := lb + ub) (f := backStepb a n (lb + ub)) (by omega)
        (fun b k => ⟨fun h => by simp only [backStepb, if_pos h], fun h => by
          simp only [backStepb, if_neg (show ¬ lb + ub < n - k - 1 by omega)]; exact ⟨_, rfl⟩⟩) b'
      by_cases h2 : lb + ub < n - 1
      · rw [g1 h2]; simp [h2]
      · obtain ⟨c, hc⟩ := g2 (by omega)
        rw [hc]; simp; omega

/-- **C72** (any arithmetic, overflow checks on). The same for `solbc`. -/
theorem C72_solbc_panics {n : ℕ} (hn : 1 ≤ n) (ar ai : NMat F) (lb ub : ℕ) (b : NVec F × NVec F) (ip : ℕ → ℤ) :
    (solbc n ar ai lb ub b ip = .panic ↔ lb + ub = 0 ∨ lb + ub < n - 1) ∧ solbc n ar ai lb ub b ip ≠ .timeout := by
  unfold solbc
  dsimp only
  by_cases h0 : lb + ub = 0
  · rw [if_pos (.inl h0)]; simp [h0]
  · rw [if_neg (by omega)]
    by_cases h1 : n = 1
    · subst h1; simp; omega
    · rw [if_pos h1]
      generalize (if lb ≠ 0 then _ else b) = b'
      obtain ⟨g1, g2⟩ := back_panic (n := n) (md := lb + ub) (f := backStepbc ar ai n (lb + ub)) (by omega)
        (fun b k => ⟨fun h => by simp only [backStepbc, if_pos h], fun h => by
          simp only [backStepbc, if_neg (show ¬ lb + ub < n - k - 1 by omega)]; exact ⟨_, rfl⟩⟩) b'
      by_cases h2 : lb + ub < n - 1
      · rw [g1 h2]; simp [h2]
      · obtain ⟨c, hc⟩ := g2 (by omega)
        rw [hc]; simp; omega

/-- **C72** (any arithmetic). `solbc` returns the right-hand side as the solution of a single equation. -/
theorem C72_solbc_single (ar ai : NMat F) {lb ub : ℕ} (h : lb + ub ≠ 0) (b : NVec F × NVec F) (ip : ℕ → ℤ) :
    solbc 1 ar ai lb ub b ip = .ok b := by
  unfold solbc
  dsimp only
  rw [if_neg (by omega), if_neg (by simp)]

/-- The first passes of `decbc` for a tridiagonal matrix. -/
theorem Linalg.decbc_loop {n : ℕ} (hn : 2 ≤ n) {ar ai : NMat F} {ip : ℕ → ℤ}
    (h0 : ∀ k, k < n - 1 → Fl.eq (Fl.abs (ar 2 k) + Fl.abs (ai 2 k)) 0.0 = false) :
    let st := forRange 0 (n - 1) ⟨⟨zeroFill n 1 1 ar, zeroFill n 1 1 ai, ip, none⟩, 0⟩ (decbcBody n 1 1)
    st.ret = none ∧ (∀ i j, st.ar (i + 1) j = ar (i + 1) j) ∧ (∀ i j, st.ai (i + 1) j = ai (i + 1) j) ∧
      (∀ i, i < n - 1 → st.ip i = i) := by
  intro st
  have := forRange_ind (I := fun k (st : BandcSt F) => st.ret = none ∧ (∀ i j, st.ar (i + 1) j = ar (i + 1) j) ∧
      (∀ i j, st.ai (i + 1) j = ai (i + 1) j) ∧ (∀ i, i < k → st.ip i = i) ∧ st.ju ≤ k + 1)
    (lo := 0) (hi := n - 1) (by omega) (s := ⟨⟨zeroFill n 1 1 ar, zeroFill n 1 1 ai, ip, none⟩, 0⟩) (f := decbcBody n 1 1)
    ⟨rfl, fun i j => zeroFill_apply n 1 ar i j, fun i j => zeroFill_apply n 1 ai i j, by simp, by simp⟩ ?_
  · obtain ⟨h1, h2, h3, h4, -⟩ := this
    exact ⟨h1, h2, h3, h4⟩
  · rintro k s - hk ⟨h1, h2, h3, h5, h6⟩
    have hp : pivotbc s.ar s.ai k 2 3 = 2 := rfl
    have hm : min 1 (n - k - 1) = 1 := by omega
    have hju : min (max s.ju (1 + k + 1)) n = k + 2 := by omega
    have he : Fl.eq (Fl.abs (s.ar 2 k) + Fl.abs (s.ai 2 k)) 0.0 = false := by rw [h2, h3]; exact h0 k hk
    have hself : ∀ c : NMat F, set2 (set2 c 2 k (c 2 k)) 2 k (c 2 k) = c := by
      intro c; funext i j; unfold set2
      by_cases h : i = 2 ∧ j = k
      · rw [if_pos h, h.1, h.2]
      · rw [if_neg h, if_neg h]
    have e : ∃ ip', decbcBody n 1 1 s k = { s with ip := ip', ju := k + 2 } ∧ ip' k = k ∧ ∀ i, i < k → ip' i = s.ip i := by
      have hc : forRange (k + 1) (k + 2) ((s.ar, s.ai), 2, 2)
          (fun q j => (elimColbc k 2 3 q.1 (q.2.1 - 1) (q.2.2 - 1) j, q.2.1 - 1, q.2.2 - 1)) = ((s.ar, s.ai), 1, 1) := by
        rw [show k + 2 = (k + 1) + 1 by omega, forRange_succ le_rfl, forRange_empty le_rfl]
        simp [elimColbc, forRange_empty]
      have hkk : ((2 + k - 2 : ℕ) : ℤ) = k := by rw [show 2 + k - 2 = k by omega]
      have hz : ∀ tr ti, scaleColc (s.ar, s.ai) k 3 3 tr ti = (s.ar, s.ai) := fun tr ti => forRange_empty le_rfl _ _
      by_cases h2k : 2 = k
      · refine ⟨set1 s.ip k k, ?_, by simp [set1], fun i hi => by simp [set1, hi.ne]⟩
        have hset : (set1 s.ip k (k : ℤ) k).toNat = k := by simp [set1]
        unfold decbcBody
        simp only [h1, hm, Nat.reduceAdd, hp, he, hkk, if_neg (not_not.2 h2k), hset, hju, hz, Bool.false_eq_true, if_false]
        rw [if_pos (by omega), hc]
      · have hset : (set1 (set1 s.ip k (k : ℤ)) (n - 1) (-(set1 s.ip k (k : ℤ) (n - 1))) k).toNat = k := by
          simp [set1, show k ≠ n - 1 by omega]
        refine ⟨set1 (set1 s.ip k k) (n - 1) (-(set1 s.ip k (k : ℤ) (n - 1))), ?_, ?_, ?_⟩
        · unfold decbcBody
          simp only [h1, hm, Nat.reduceAdd, hp, he, ne_eq, h2k, not_false_eq_true, if_true, hkk, hset, Bool.false_eq_true,
            if_false, hself, hju, hz]
          rw [if_pos (by omega), hc]
        · simp [set1, show k ≠ n - 1 by omega]
        · intro i hi; simp [set1, show i ≠ n - 1 by omega, hi.ne]
    obtain ⟨ip', e, e1, e2⟩ := e
    rw [e]
    refine ⟨h1, h2, h3, fun i hi => ?_, by simp⟩
    by_cases h : i = k
    · subst h; exact e1
    · change ip' i = _
      rw [e2 i (by omega)]; exact h5 i (by omega)

/-- **C72** (any arithmetic). `decbc` does nothing at all to a tridiagonal matrix without zeros on the diagonal, and
reports success. -/
theorem C72_decbc_tridiagonal {n : ℕ} (hn : 2 ≤ n) {Ar Ai ar ai : NMat F} (hr : IsBand n 1 1 Ar ar) (hi : IsBand n 1 1 Ai ai)
    (ip : ℕ → ℤ) (hd : ∀ k, k < n → Fl.eq (Fl.abs (Ar k k) + Fl.abs (Ai k k)) 0.0 = false) :
    ∃ st : LucSt F, decbc n ar ai 1 1 ip = .ok (st, 0) ∧ (∀ k, k < n - 1 → st.ip k = k) ∧
      IsBand n 1 1 Ar st.ar ∧ IsBand n 1 1 Ai st.ai := by
  have d : ∀ {A a : NMat F}, IsBand n 1 1 A a → ∀ k, k < n → a 2 k = A k k := fun h k hk => by
    simpa using h k k hk hk (by omega) (by omega)
  obtain ⟨h1, h2, h3, h5⟩ := decbc_loop hn (ar := ar) (ai := ai) (ip := set1 ip (n - 1) 1)
    (fun k hk => by rw [d hr k (by omega), d hi k (by omega)]; exact hd k (by omega))
  have key : ∀ {A a a' : NMat F}, IsBand n 1 1 A a → (∀ i j, a' (i + 1) j = a (i + 1) j) → IsBand n 1 1 A a' := by
    intro A a a' h g i j hi hj hl hu
    rw [← h i j hi hj hl hu, show i + (1 + 1) - j = (i + 1 - j) + 1 by omega]
    exact g _ _
  refine ⟨_, ?_, h5, key hr h2, key hi h3⟩
  unfold decbc
  rw [if_neg (by omega)]
  dsimp only
  rw [if_pos (by omega), h1]
  dsimp only
  rw [show 1 + 1 = 2 from rfl, h2 1, h3 1, d hr _ (by omega), d hi _ (by omega), hd _ (by omega)]
  rfl

end anyArithmetic

section exact
noncomputable section

theorem Linalg.solb_two {a : NMat ℝ} {ip : ℕ → ℤ} (h : ip 0 = 0) (b : NVec ℝ) :
    ∃ x, solb 2 a 1 1 b ip = .ok x ∧ x 1 = (b 1 + a 3 0 * b 0) / a 2 1 ∧
      x 0 = (b 0 + a 1 1 * -((b 1 + a 3 0 * b 0) / a 2 1)) / a 2 0 := by
  refine ⟨_, rfl, ?_, ?_⟩
  · simp [forRange, set1, h]
  · simp [forRange, set1, h]

/-- **C72** (exact arithmetic). For 2 × 2 matrices with nonzero diagonal, `decb` and `solb` return a solution only if
`b c = 0` or the second component they return is zero. -/
theorem C72_banded_wrong {A a : NMat ℝ} (ha : IsBand 2 1 1 A a) (h0 : A 0 0 ≠ 0) (h1 : A 1 1 ≠ 0) (ip : ℕ → ℤ) (b : NVec ℝ) :
    ∃ st x, decb 2 a 1 1 ip = .ok (st, 0) ∧ solb 2 st.a 1 1 b st.ip = .ok x ∧
      (Solves 2 A x b ↔ A 0 1 * A 1 0 * (A 0 0 * b 1 - A 1 0 * b 0) = 0) := by
  obtain ⟨st, g1, g2, g3, g4, g5⟩ := C72_decb_tridiagonal le_rfl ha ip (fun k hk => by
    interval_cases k
    · change decide _ = false; norm_num; exact h0
    · change decide _ = false; norm_num; exact h1)
  have e0 := g2 0 (by omega)
  have e1 := g3 0 (by omega)
  have e2 := g3 1 (by omega)
  have e3 := g4 0 (by omega)
  have e4 := g5 0 (by omega)
  obtain ⟨x, k1, k2, k3⟩ := solb_two (a := st.a) (ip := st.ip) (by simpa using e0) b
  refine ⟨st, x, g1, k1, ?_⟩
  rw [e4, e2] at k2
  rw [e3, e4, e2, e1] at k3
  have h10 : (1.0 : ℝ) = 1 := by norm_num
  rw [h10] at k2 k3
  constructor
  · intro h
    have h' := h 1 (by omega)
    simp only [Finset.sum_range_succ, Finset.sum_range_zero, zero_add, k2, k3] at h'
    field_simp at h'
    linarith
  · intro h i hi
    simp only [Finset.sum_range_succ, Finset.sum_range_zero, zero_add, k2, k3]
    interval_cases i
    · field_simp; ring
    · field_simp; linarith

theorem Linalg.solbc_two {ar ai : NMat ℝ} {ip : ℕ → ℤ} (h : ip 0 = 0) (b : NVec ℝ × NVec ℝ) :
    ∃ x, solbc 2 ar ai 1 1 b ip = .ok x ∧
      complexVector x 1 = (complexVector b 1 + complexMatrix ar ai 3 0 * complexVector b 0) / complexMatrix ar ai 2 1 ∧
      complexVector x 0 = (complexVector b 0 - complexMatrix ar ai 1 1 * complexVector x 1) / complexMatrix ar ai 2 0 := by
  refine ⟨_, rfl, ?_, ?_⟩
  · rw [Complex.ext_iff]
    simp [complexVector, complexMatrix, divBandc, forRange, set1, h, Complex.div_re, Complex.div_im, Complex.normSq]
    constructor <;> ring
  · rw [Complex.ext_iff]
    simp [complexVector, complexMatrix, divBandc, forRange, set1, h, Complex.div_re, Complex.div_im, Complex.normSq]
    constructor <;> ring

/-- **C72** (exact arithmetic). For complex 2 × 2 matrices with nonzero diagonal, `decbc` and `solbc` return a solution
only if the subdiagonal entry is zero or the first component they return is minus the first right-hand side. -/
theorem C72_banded_complex_wrong {Ar Ai ar ai : NMat ℝ} (hr : IsBand 2 1 1 Ar ar) (hi : IsBand 2 1 1 Ai ai)
    (h0 : complexMatrix Ar Ai 0 0 ≠ 0) (h1 : complexMatrix Ar Ai 1 1 ≠ 0) (ip : ℕ → ℤ) (b : NVec ℝ × NVec ℝ) :
    ∃ st x, decbc 2 ar ai 1 1 ip = .ok (st, 0) ∧ solbc 2 st.ar st.ai 1 1 b st.ip = .ok x ∧
      (Solves 2 (complexMatrix Ar Ai) (complexVector x) (complexVector b) ↔
        complexMatrix Ar Ai 1 0 * (complexVector x 0 + complexVector b 0) = 0) := by
  have hz : ∀ k, complexMatrix Ar Ai k k ≠ 0 → Fl.eq (Fl.abs (Ar k k) + Fl.abs (Ai k k)) 0.0 = false := by
    intro k h
    change decide (|Ar k k| + |Ai k k| = 0.0) = false
    rw [decide_eq_false_iff_not]
    intro h'
    apply h
    have p1 := abs_nonneg (Ar k k)
    have p2 := abs_nonneg (Ai k k)
    norm_num at h'
    exact Complex.ext (abs_eq_zero.1 (show |Ar k k| = 0 by linarith)) (abs_eq_zero.1 (show |Ai k k| = 0 by linarith))
  obtain ⟨st, g1, g2, g3, g4⟩ := C72_decbc_tridiagonal le_rfl hr hi ip (fun k hk => by
    interval_cases k
    · exact hz 0 h0
    · exact hz 1 h1)
  obtain ⟨x, k1, k2, k3⟩ := solbc_two (ar := st.ar) (ai := st.ai) (ip := st.ip) (by simpa using g2 0 (by omega)) b
  refine ⟨st, x, g1, k1, ?_⟩
  have e : ∀ i j, i < 2 → j < 2 → complexMatrix st.ar st.ai (i + (1 + 1) - j) j = complexMatrix Ar Ai i j := fun i j hi hj =>
    Complex.ext (g3 i j hi hj (by omega) (by omega)) (g4 i j hi hj (by omega) (by omega))
  rw [show complexMatrix st.ar st.ai 3 0 = complexMatrix Ar Ai 1 0 from e 1 0 (by omega) (by omega),
    show complexMatrix st.ar st.ai 2 1 = complexMatrix Ar Ai 1 1 from e 1 1 (by omega) (by omega), eq_div_iff h1] at k2
  rw [show complexMatrix st.ar st.ai 1 1 = complexMatrix Ar Ai 0 1 from e 0 1 (by omega) (by omega),
    show complexMatrix st.ar st.ai 2 0 = complexMatrix Ar Ai 0 0 from e 0 0 (by omega) (by omega), eq_div_iff h0] at k3
  constructor
  · intro h
    have h' := h 1 (by omega)
    simp only [Finset.sum_range_succ, Finset.sum_range_zero, zero_add] at h'
    linear_combination h' - k2
  · intro h i hi
    simp only [Finset.sum_range_succ, Finset.sum_range_zero, zero_add]
    interval_cases i
    · linear_combination k3
    · linear_combination h + k2

/-- **C72** (exact arithmetic). For 3 × 3 matrices whose second row needs no interchange, `elmhes` changes the trace (so
the Hessenberg matrix it leaves is not similar to the given one) unless the entry `a12` or `a20` is zero. -/
theorem C72_elmhes_wrong {a : NMat ℝ} (h : |a 2 0| ≤ |a 1 0|) (h0 : a 2 0 ≠ 0) (inter : ℕ → ℤ) :
    ∃ a' inter', elmhes 3 0 3 a inter = .ok (a', inter') ∧
      a' 0 0 + a' 1 1 + a' 2 2 = a 0 0 + a 1 1 + a 2 2 - a 2 0 / a 1 0 * a 1 2 := by
  have h1 : a 1 0 ≠ 0 := fun h' => h0 (abs_eq_zero.1 (le_antisymm (by simpa [h'] using h) (abs_nonneg _)))
  refine ⟨_, _, rfl, ?_⟩
  have hp : 0 < |a 1 0| := abs_pos.2 h1
  have h00 : (0.0 : ℝ) = 0 := by norm_num
  simp [forRange, List.range', hesStep, hesRow, set2, Fl.gt, hp, not_lt.2 h, h0, h1, h00]
  ring

/-- The matrix `2 1; 1 2` in band storage. -/
theorem Linalg.band_example : IsBand 2 1 1 (fun i j => if i = j then 2 else 1)
    (fun r _ => if r = 2 then 2 else 1 : NMat ℝ) := by
  intro i j hi hj _ _
  interval_cases i <;> interval_cases j <;> norm_num

/-- The system `2 x + y = 0`, `x + 2 y = 1` is not solved. -/
example : ∃ st x, decb 2 (fun r _ => if r = 2 then 2 else 1 : NMat ℝ) 1 1 (fun _ => 0) = .ok (st, 0) ∧
    solb 2 st.a 1 1 (fun i => i) st.ip = .ok x ∧ ¬ Solves 2 (fun i j => if i = j then 2 else 1) x (fun i => (i : ℝ)) := by
  obtain ⟨st, x, h1, h2, h3⟩ := C72_banded_wrong band_example (by simp) (by simp) (fun _ => 0) (fun i => i)
  refine ⟨st, x, h1, h2, fun h => ?_⟩
  have := h3.1 h
  norm_num at this

/-- Neither is it as a complex system. -/
example : ∃ st x, decbc 2 (fun r _ => if r = 2 then 2 else 1 : NMat ℝ) (fun _ _ => 0) 1 1 (fun _ => 0) = .ok (st, 0) ∧
    solbc 2 st.ar st.ai 1 1 (fun i => i, fun _ => 0) st.ip = .ok x ∧
    ¬ Solves 2 (complexMatrix (fun i j => if i = j then 2 else 1) (fun _ _ => 0)) (complexVector x)
      (complexVector (fun i => (i : ℝ), fun _ => 0)) := by
  obtain ⟨st, x, h1, h2, h3⟩ := C72_banded_complex_wrong (Ai := fun _ _ => 0) (ai := fun _ _ => 0) band_example
    (fun _ _ _ _ _ _ => rfl) (by simp [complexMatrix, Complex.ext_iff]) (by simp [complexMatrix, Complex.ext_iff]) (fun _ => 0)
    (fun i => i, fun _ => 0)
  refine ⟨st, x, h1, h2, fun h => ?_⟩
  have h4 := h3.1 h
  have e1 := h 0 (by omega)
  have e2 := h 1 (by omega)
  simp only [Finset.sum_range_succ, Finset.sum_range_zero, zero_add, complexMatrix, complexVector, Complex.ext_iff, Complex.mul_re,
    Complex.mul_im, Complex.add_re, Complex.add_im, Complex.zero_re] at h4 e1 e2
  norm_num at h4 e1 e2
  linarith [h4.1, e1.1, e2.1]

/-- A matrix with 4 rows and bandwidths 1 makes `solb` panic. -/
example (a : NMat ℝ) (b : NVec ℝ) (ip : ℕ → ℤ) : solb 4 a 1 1 b ip = .panic :=
  (C72_solb_panics (by omega) a 1 1 b ip).1.2 (by omega)

/-- The trace of the matrix of ones becomes 2. -/
example : ∃ a' inter', elmhes 3 0 3 (fun _ _ => 1 : NMat ℝ) (fun _ => 0) = .ok (a', inter') ∧
    a' 0 0 + a' 1 1 + a' 2 2 = 2 := by
  obtain ⟨a', i', h1, h2⟩ := C72_elmhes_wrong (a := fun _ _ => 1) (by simp) (by simp) (fun _ => 0)
  exact ⟨a', i', h1, by rw [h2]; norm_num⟩

end
end exact
end Cyphus
