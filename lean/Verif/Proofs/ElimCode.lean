import Verif.Proofs.Elim
import Verif.Linalg.Model
/-!
# The elimination code over a field

The loops of `src/linalg` with exact field operations and an arbitrary pivot search, and what they compute. The real and
the complex routines are instances (`Verif.Proofs.LuReal`, `Verif.Proofs.LuComplex`).
-/

namespace Cyphus
namespace Linalg
set_option autoImplicit false
set_option linter.unusedSectionVars false
open Matrix

/-! ### Loops -/

theorem forRange_succ {σ : Type} {lo hi : ℕ} (h : lo ≤ hi) (s : σ) (f : σ → ℕ → σ) :
    forRange lo (hi + 1) s f = f (forRange lo hi s f) hi := by
  unfold forRange
  rw [show hi + 1 - lo = (hi - lo) + 1 by omega, List.range'_concat, List.foldl_append]
  simp [show lo + (hi - lo) = hi by omega]

theorem forRange_empty {σ : Type} {lo hi : ℕ} (h : hi ≤ lo) (s : σ) (f : σ → ℕ → σ) : forRange lo hi s f = s := by
  unfold forRange
  rw [show hi - lo = 0 by omega]; rfl

theorem forRange_ind {σ : Type} {I : ℕ → σ → Prop} {lo hi : ℕ} (h : lo ≤ hi) {s : σ} {f : σ → ℕ → σ} (h0 : I lo s)
    (hs : ∀ i s, lo ≤ i → i < hi → I i s → I (i + 1) (f s i)) : I hi (forRange lo hi s f) := by
  induction hi, h using Nat.le_induction with
  | base => rw [forRange_empty le_rfl]; exact h0
  | succ k hk ih =>
    rw [forRange_succ hk]
    exact hs k _ hk (by omega) (ih fun i s h1 h2 => hs i s h1 (by omega))

theorem forRange_map {σ τ : Type} (g : σ → τ) {f : σ → ℕ → σ} {f' : τ → ℕ → τ} (hf : ∀ s i, g (f s i) = f' (g s) i)
    (lo hi : ℕ) (s : σ) : g (forRange lo hi s f) = forRange lo hi (g s) f' := by
  unfold forRange
  generalize List.range' lo (hi - lo) = l
  induction l generalizing s with
  | nil => rfl
  | cons x l ih => simp only [List.foldl_cons]; rw [ih, hf]

theorem forRange_id {σ : Type} {f : σ → ℕ → σ} (hf : ∀ s i, f s i = s) (lo hi : ℕ) (s : σ) : forRange lo hi s f = s := by
  have := forRange_map (fun _ : Unit => s) (f := fun _ _ => ()) (f' := f) (fun _ i => (hf s i).symm) lo hi ()
  exact this.symm

theorem forRange_congr {σ : Type} {f f' : σ → ℕ → σ} {lo hi : ℕ} (h : ∀ s i, lo ≤ i → i < hi → f s i = f' s i) (s : σ) :
    forRange lo hi s f = forRange lo hi s f' := by
  rcases Nat.le_total lo hi with hl | hl
  · induction hi, hl using Nat.le_induction with
    | base => rw [forRange_empty le_rfl, forRange_empty le_rfl]
    | succ k hk ih =>
      rw [forRange_succ hk, forRange_succ hk, ih fun s i h1 h2 => h s i h1 (by omega), h _ _ hk (by omega)]
  · rw [forRange_empty hl, forRange_empty hl]

variable {K : Type} [Field K]

/-! ### One elimination step -/

def scaleK (a : NMat K) (k lo hi : ℕ) (t : K) : NMat K :=
  forRange lo hi a fun a i => set2 a i k (-(a i k * t))

theorem scaleK_apply (a : NMat K) (k lo hi : ℕ) (t : K) (i j : ℕ) :
    scaleK a k lo hi t i j = if j = k ∧ lo ≤ i ∧ i < hi then -(a i k * t) else a i j := by
  unfold scaleK
  rcases Nat.le_total lo hi with hl | hl
  · revert i j
    refine forRange_ind (I := fun h (b : NMat K) => ∀ i j, b i j = if j = k ∧ lo ≤ i ∧ i < h then -(a i k * t) else a i j) hl ?_ ?_
    · intro i j; rw [if_neg (by omega)]
    · intro r b h1 h2 ih i j
      simp only [set2]
      by_cases hc : i = r ∧ j = k
      · obtain ⟨rfl, rfl⟩ := hc
        rw [if_pos ⟨rfl, rfl⟩, if_pos (by omega), ih, if_neg (by omega)]
      · rw [if_neg hc, ih]
        by_cases hd : j = k ∧ lo ≤ i ∧ i < r
        · rw [if_pos hd, if_pos (by omega)]
        · rw [if_neg hd, if_neg (by omega)]
  · rw [forRange_empty hl, if_neg (by omega)]

def elimK (k m hi : ℕ) (a : NMat K) (j : ℕ) : NMat K :=
  forRange (k + 1) hi (set2 (set2 a m j (a k j)) k j (a m j)) fun b i => set2 b i j (b i j + b i k * a m j)

/-- The new column `j`. -/
def colForm (k m hi : ℕ) (a : NMat K) (i j : ℕ) : K :=
  if i = k then a m j else if k < i ∧ i < hi then a (swp k m i) j + a i k * a m j else a (swp k m i) j

theorem elimK_apply {k m hi : ℕ} (hkm : k ≤ m) (a : NMat K) {j : ℕ} (hj : k < j) (i' j' : ℕ) :
    elimK k m hi a j i' j' = if j' = j then colForm k m hi a i' j else a i' j' := by
  unfold elimK
  have base : ∀ i' j', set2 (set2 a m j (a k j)) k j (a m j) i' j' =
      if j' = j then a (swp k m i') j else a i' j' := by
    intro i' j'
    simp only [set2, swp]
    by_cases h1 : j' = j
    · subst h1
      by_cases h2 : i' = k
      · simp [h2]
      · by_cases h3 : i' = m
        · subst h3; simp [h2]
        · simp [h2, h3]
    · simp [h1]
  rcases Nat.le_total (k + 1) hi with hl | hl
  · revert i' j'
    refine forRange_ind (I := fun h (b : NMat K) => ∀ i' j', b i' j' = if j' = j then colForm k m h a i' j else a i' j') hl ?_ ?_
    · intro i' j'
      rw [base]
      by_cases h1 : j' = j
      · rw [if_pos h1, if_pos h1, colForm]
        by_cases h2 : i' = k
        · rw [if_pos h2, h2, swp, if_pos rfl]
        · rw [if_neg h2, if_neg (by omega)]
      · rw [if_neg h1, if_neg h1]
    · intro r b h1 h2 ih i' j'
      simp only [set2]
      by_cases hc : i' = r ∧ j' = j
      · obtain ⟨rfl, rfl⟩ := hc
        rw [if_pos ⟨rfl, rfl⟩, if_pos rfl, ih, if_pos rfl, ih, if_neg hj.ne, colForm, colForm, if_neg (by omega),
          if_neg (by omega), if_neg (by omega), if_pos (by omega)]
      · rw [if_neg hc, ih]
        by_cases hd : j' = j
        · rw [if_pos hd, if_pos hd, colForm, colForm]
          by_cases h3 : i' = k
          · rw [if_pos h3, if_pos h3]
          · rw [if_neg h3, if_neg h3]
            by_cases h4 : k < i' ∧ i' < r
            · rw [if_pos h4, if_pos (by omega)]
            · rw [if_neg h4, if_neg (by omega)]
        · rw [if_neg hd, if_neg hd]
  · rw [forRange_empty hl, base]
    by_cases h1 : j' = j
    · rw [if_pos h1, if_pos h1, colForm]
      by_cases h2 : i' = k
      · rw [if_pos h2, h2, swp, if_pos rfl]
      · rw [if_neg h2, if_neg (by omega)]
    · rw [if_neg h1, if_neg h1]

theorem elimCols_apply {k m hi n : ℕ} (hkm : k ≤ m) (hk : k < n) (a : NMat K) (i j : ℕ) :
    forRange (k + 1) n a (elimK k m hi) i j = if k < j ∧ j < n then colForm k m hi a i j else a i j := by
  revert i j
  refine forRange_ind (I := fun h (b : NMat K) => ∀ i j, b i j = if k < j ∧ j < h then colForm k m hi a i j else a i j) hk ?_ ?_
  · intro i j; rw [if_neg (by omega)]
  · intro r b h1 h2 ih i j
    rw [elimK_apply hkm b (by omega)]
    by_cases hj : j = r
    · subst hj
      rw [if_pos rfl, if_pos (by omega)]
      have e1 : ∀ i, b i j = a i j := fun i => by rw [ih, if_neg (by omega)]
      have e2 : ∀ i, b i k = a i k := fun i => by rw [ih, if_neg (by omega)]
      simp only [colForm, e1, e2]
    · rw [if_neg hj, ih]
      by_cases h3 : k < j ∧ j < r
      · rw [if_pos h3, if_pos (by omega)]
      · rw [if_neg h3, if_neg (by omega)]

/-! ### The outer loop -/

/-- Interchange in column `k`, recording the pivot and the sign. -/
def swapK (n : ℕ) (st : LuSt K) (k m : ℕ) : LuSt K :=
  let ip := set1 st.ip k (m : ℤ)
  let t := st.a m k
  if m ≠ k then
    { st with ip := set1 ip (n - 1) (-(ip (n - 1)))
              a := set2 (set2 st.a m k (st.a k k)) k k t }
  else { st with ip := ip }

open Classical in
/-- One iteration of the outer loop with pivot search `pv`; rows from `hi k` on are left alone. -/
noncomputable def bodyK (pv : NMat K → ℕ → ℕ → ℕ) (n : ℕ) (hi : ℕ → ℕ) (sc : ℕ → ℕ) (st : LuSt K) (k : ℕ) : LuSt K :=
  match st.ret with
  | some _ => st
  | none =>
    let m := pv st.a k (hi k)
    let t := st.a m k
    let st := swapK n st k m
    if t = 0 then { st with ip := set1 st.ip (n - 1) 0, ret := some k }
    else { st with a := forRange (k + 1) n (scaleK st.a k (k + 1) (sc k) t⁻¹) (elimK k m (hi k)) }

theorem swapK_a {n k m : ℕ} (st : LuSt K) (i j : ℕ) :
    (swapK n st k m).a i j = if j = k then st.a (swp k m i) k else st.a i j := by
  unfold swapK
  by_cases h : m = k
  · subst h
    simp only [ne_eq, not_true_eq_false, if_false]
    have : swp m m i = i := by unfold swp; split_ifs <;> omega
    rw [this]
    split_ifs with h
    · rw [h]
    · rfl
  · simp only [ne_eq, h, not_false_eq_true, if_true, set2, swp]
    by_cases h1 : j = k
    · subst h1
      by_cases h2 : i = j
      · simp [h2]
      · by_cases h3 : i = m
        · simp [h3, h]
        · simp [h2, h3]
    · simp [h1]

theorem swapK_ret {n k m : ℕ} (st : LuSt K) : (swapK n st k m).ret = st.ret := by
  unfold swapK; dsimp only; split <;> rfl

theorem swapK_ip {n k m : ℕ} (st : LuSt K) (hk : k < n - 1) (i : ℕ) : (swapK n st k m).ip i =
    if i = k then (m : ℤ) else if i = n - 1 then (if m = k then 1 else -1) * st.ip (n - 1) else st.ip i := by
  unfold swapK
  by_cases h : m = k
  · simp only [ne_eq, h, not_true_eq_false, if_false, set1, if_true, one_mul]
    by_cases h1 : i = k
    · rw [if_pos h1, if_pos h1]
    · rw [if_neg h1, if_neg h1]
      split_ifs with h2
      · rw [h2]
      · rfl
  · simp only [ne_eq, h, not_false_eq_true, if_true, set1, if_false]
    have : ¬ (n - 1 = k) := by omega
    by_cases h1 : i = k
    · rw [if_pos h1, if_neg (by omega), if_pos h1]
    · by_cases h2 : i = n - 1
      · simp [h2, this]
      · simp [h1, h2]

/-- What is assumed about the pivot search: it returns a row between `k` and `hi` which is zero in column `k` only if all
of them are; `Q` is what is known about the entries of the column compared to the pivot. -/
structure PivotOk (pv : NMat K → ℕ → ℕ → ℕ) (Q : K → K → Prop) : Prop where
  lo : ∀ a k hi, k < hi → k ≤ pv a k hi
  hi : ∀ a k hi, k < hi → pv a k hi < hi
  zero : ∀ (a : NMat K) k hi, k < hi → a (pv a k hi) k = 0 → ∀ i, k ≤ i → i < hi → a i k = 0
  q : ∀ (a : NMat K) k hi, k < hi → ∀ i, k ≤ i → i < hi → Q (a i k) (a (pv a k hi) k)
  q0 : ∀ t, Q 0 t

/-- What is assumed about the row limits: below them the matrix is zero. -/
structure HiOk (n : ℕ) (hi sc : ℕ → ℕ) : Prop where
  lt : ∀ k, k < n → k < hi k
  le : ∀ k, hi k ≤ n
  mono : ∀ j k, j ≤ k → hi j ≤ hi k
  sc : ∀ k, hi k ≤ sc k ∧ sc k ≤ n

theorem HiOk.full (n : ℕ) : HiOk n (fun _ => n) (fun _ => n) :=
  ⟨fun _ h => h, fun _ => le_rfl, fun _ _ _ => le_rfl, fun _ => ⟨le_rfl, le_rfl⟩⟩

theorem elimStep_of {n k m : ℕ} {hi sc : ℕ → ℕ} (H : HiOk n hi sc) (hk : k < n) (hkm : k ≤ m) (hm : m < hi k)
    (st : LuSt K) (ht : st.a m k ≠ 0) (hz : ∀ i, hi k ≤ i → i < n → st.a i k = 0) :
    let a' := forRange (k + 1) n (scaleK (swapK n st k m).a k (k + 1) (sc k) (st.a m k)⁻¹) (elimK k m (hi k))
    ElimStep n k m st.a a' ∧ (∀ i j, hi k ≤ i → i < n → k < j → j < n → a' i j = st.a i j) ∧
      ∀ i, k < i → i < n → a' i k = -(st.a (swp k m i) k * (st.a m k)⁻¹) := by
  intro a'
  have hn : m < n := lt_of_lt_of_le hm (H.le k)
  have form : ∀ i j, a' i j = if k < j ∧ j < n then colForm k m (hi k)
      (scaleK (swapK n st k m).a k (k + 1) (sc k) (st.a m k)⁻¹) i j else
      scaleK (swapK n st k m).a k (k + 1) (sc k) (st.a m k)⁻¹ i j := fun i j => elimCols_apply hkm hk _ i j
  have sform : ∀ i j, j ≠ k → scaleK (swapK n st k m).a k (k + 1) (sc k) (st.a m k)⁻¹ i j = st.a i j := by
    intro i j hj
    rw [scaleK_apply, if_neg (by omega), swapK_a, if_neg hj]
  have sk : ∀ i, k < i → i < n → scaleK (swapK n st k m).a k (k + 1) (sc k) (st.a m k)⁻¹ i k =
      -(st.a (swp k m i) k * (st.a m k)⁻¹) := by
    intro i h1 h2
    rw [scaleK_apply]
    by_cases h3 : i < sc k
    · rw [if_pos (by omega), swapK_a, if_pos rfl]
    · have := (H.sc k).1
      have e : swp k m i = i := by unfold swp; split_ifs <;> omega
      rw [if_neg (by omega), swapK_a, if_pos rfl, e, hz i (by omega) h2]; simp
  have multf : ∀ i, k < i → i < n → a' i k = -(st.a (swp k m i) k * (st.a m k)⁻¹) := by
    intro i h1 h2
    rw [form, if_neg (by omega), sk i h1 h2]
  have multz : ∀ i, hi k ≤ i → i < n → a' i k = 0 := by
    intro i h1 h2
    have := H.lt k hk
    have e : swp k m i = i := by unfold swp; split_ifs <;> omega
    rw [multf i (by omega) h2, e, hz i h1 h2]; simp
  refine ⟨⟨hk, hkm, hn, ht, ?_, ?_, ?_, ?_, ?_⟩, ?_, multf⟩
  · intro i j _ hj
    rw [form, if_neg (by omega), sform _ _ (by omega)]
  · intro i j hi' hj hjn
    have e : swp k m i = i := by unfold swp; split_ifs <;> omega
    rw [form]
    by_cases h : k < j
    · rw [if_pos ⟨h, hjn⟩, colForm, if_neg (by omega), if_neg (by omega), e, sform _ _ (by omega)]
    · obtain rfl : j = k := by omega
      rw [if_neg (by omega), scaleK_apply, if_neg (by omega), swapK_a, if_pos rfl, e]
  · intro j hj hjn
    rw [form]
    by_cases h : k < j
    · rw [if_pos ⟨h, hjn⟩, colForm, if_pos rfl, sform _ _ (by omega)]
    · obtain rfl : j = k := by omega
      rw [if_neg (by omega), scaleK_apply, if_neg (by omega), swapK_a, if_pos rfl, swp, if_pos rfl]
  · intro i h1 h2
    rw [multf i h1 h2, neg_mul, inv_mul_cancel_right₀ ht]
  · intro i j h1 h2 h3 h4
    rw [form i j, if_pos ⟨h3, h4⟩, colForm, if_neg (by omega)]
    by_cases h : i < hi k
    · rw [if_pos ⟨h1, h⟩, sform (swp k m i) j (by omega), sform m j (by omega), form i k, if_neg (by omega)]
    · rw [if_neg (by omega), sform _ _ (by omega), multz i (by omega) h2]; simp
  · intro i j h1 h2 h3 h4
    have := H.lt k hk
    have e : swp k m i = i := by unfold swp; split_ifs <;> omega
    rw [form i j, if_pos ⟨h3, h4⟩, colForm, if_neg (by omega), if_neg (by omega), e, sform _ _ (by omega)]

/-- The invariant of the outer loop. -/
structure LuInv (Q : K → K → Prop) (n : ℕ) (hi : ℕ → ℕ) (A : NMat K) (k : ℕ) (st : LuSt K) : Prop where
  run : st.ret = none → LuRun n A (fun i => (st.ip i).toNat) k st.a ∧ (∀ i, i < k → 0 ≤ st.ip i) ∧
    st.ip (n - 1) = (∏ i ∈ Finset.range k, if (st.ip i).toNat = i then 1 else -1) ∧
    (∀ j i, k ≤ j → j < n → hi j ≤ i → i < n → st.a i j = 0) ∧
    (∀ j i, j < k → hi j ≤ i → i < n → st.a i j = 0) ∧
    (∀ j i, j < k → j < i → i < n → ∃ e t, t ≠ 0 ∧ Q e t ∧ st.a i j = -(e * t⁻¹))
  fail : ∀ r, st.ret = some r → r < k ∧ ∃ a p, LuRun n A p r a ∧ ∀ i, r ≤ i → i < n → a i r = 0

theorem LuInv.step {pv : NMat K → ℕ → ℕ → ℕ} {Q : K → K → Prop} (HP : PivotOk pv Q) {n : ℕ} {hi sc : ℕ → ℕ}
    (H : HiOk n hi sc) {A : NMat K} {k : ℕ} {st : LuSt K} (hk : k < n - 1) (I : LuInv Q n hi A k st) :
    LuInv Q n hi A (k + 1) (bodyK pv n hi sc st k) := by
  have hkn : k < n := by omega
  unfold bodyK
  cases hr : st.ret with
  | some r =>
    refine ⟨fun h => by simp [hr] at h, fun r' h => ?_⟩
    obtain ⟨h1, h2⟩ := I.fail r' h
    exact ⟨by omega, h2⟩
  | none =>
    obtain ⟨h1, h2, h3, h4, h5, h6⟩ := I.run hr
    have hlt := H.lt k hkn
    have a1 := HP.lo st.a k (hi k) hlt
    have a2 := HP.hi st.a k (hi k) hlt
    have a3 := HP.zero st.a k (hi k) hlt
    have a4 := HP.q st.a k (hi k) hlt
    dsimp only
    generalize pv st.a k (hi k) = m at a1 a2 a3 a4
    by_cases ht : st.a m k = 0
    · rw [if_pos ht]
      refine ⟨fun h => by simp at h, fun r h => ?_⟩
      simp only [Option.some.injEq] at h
      subst h
      refine ⟨by omega, st.a, _, h1, fun i hi1 hi2 => ?_⟩
      by_cases h : i < hi k
      · exact a3 ht i hi1 h
      · exact h4 k i le_rfl hkn (by omega) hi2
    · rw [if_neg ht]
      obtain ⟨S, s2, s3⟩ := elimStep_of H hkn a1 a2 st ht (fun i x y => h4 k i le_rfl hkn x y)
      have ipf := swapK_ip (n := n) (m := m) st hk
      refine ⟨fun _ => ⟨?_, ?_, ?_, ?_, ?_, ?_⟩, fun r h => ?_⟩
      · refine .succ (h1.congr fun i hi' => ?_) ?_
        · dsimp only; rw [ipf, if_neg (by omega), if_neg (by omega)]
        · dsimp only; rw [ipf, if_pos rfl]; exact S
      · intro i hi'
        dsimp only
        rw [ipf]
        by_cases h : i = k
        · rw [if_pos h]; omega
        · rw [if_neg h, if_neg (by omega)]; exact h2 i (by omega)
      · dsimp only
        rw [ipf (n - 1), if_neg (by omega), if_pos rfl, h3, Finset.prod_range_succ, mul_comm]
        congr 1
        · refine Finset.prod_congr rfl fun i hi' => ?_
          rw [Finset.mem_range] at hi'
          have e : (swapK n st k m).ip i = st.ip i := by rw [ipf, if_neg (by omega), if_neg (by omega)]
          rw [e]
        · rw [ipf, if_pos rfl, Int.toNat_natCast]
      · intro j i j1 j2 i1 i2
        dsimp only
        have := H.mono k j (by omega)
        rw [s2 i j (by omega) i2 (by omega) j2]
        exact h4 j i (by omega) j2 i1 i2
      · intro j i j1 i1 i2
        dsimp only
        rcases Nat.lt_succ_iff_lt_or_eq.1 j1 with h | rfl
        · rw [S.colLt i j i2 h]; exact h5 j i h i1 i2
        · have e : swp j m i = i := by unfold swp; split_ifs <;> omega
          rw [s3 i (by omega) i2, e, h4 j i le_rfl hkn i1 i2]; simp
      · intro j i j1 i1 i2
        dsimp only
        rcases Nat.lt_succ_iff_lt_or_eq.1 j1 with h | rfl
        · rw [S.colLt i j i2 h]; exact h6 j i h i1 i2
        · refine ⟨_, _, ht, ?_, s3 i i1 i2⟩
          by_cases h : swp j m i < hi j
          · refine a4 _ ?_ h
            unfold swp; split_ifs <;> omega
          · rw [h4 j (swp j m i) le_rfl hkn (by omega) (by unfold swp; split_ifs <;> omega)]
            exact HP.q0 _
      · dsimp only at h
        rw [swapK_ret, hr] at h; cases h

theorem LuRun.first_col {n : ℕ} {A : NMat K} {p : ℕ → ℕ} {k : ℕ} {a : NMat K} (h : LuRun n A p k a) (hk : k ≠ 0)
    (hz : ∀ i, i < n → A i 0 = 0) : False := by
  induction h with
  | zero => exact hk rfl
  | @succ k a a' h1 S ih =>
    by_cases h : k = 0
    · subst h
      cases h1
      exact S.piv (hz _ S.hm)
    · exact ih h

/-- A complete factorization of the `n × n` matrix `A`. -/
structure Lu (Q : K → K → Prop) (n : ℕ) (hi : ℕ → ℕ) (A : NMat K) (a : NMat K) (ip : ℕ → ℤ) : Prop where
  run : LuRun n A (fun i => (ip i).toNat) (n - 1) a
  last : a (n - 1) (n - 1) ≠ 0
  ip_nonneg : ∀ i, i < n - 1 → 0 ≤ ip i
  sign : ip (n - 1) = (∏ i ∈ Finset.range (n - 1), if (ip i).toNat = i then 1 else -1)
  zero : ∀ j i, j < n - 1 → hi j ≤ i → i < n → a i j = 0
  mult : ∀ j i, j < i → i < n → ∃ e t, t ≠ 0 ∧ Q e t ∧ a i j = -(e * t⁻¹)

open Classical in
/-- The end of the decompositions. -/
noncomputable def endK (n : ℕ) (st : LuSt K) : LuSt K × ℕ :=
  match st.ret with
  | some k => (st, k)
  | none => if st.a (n - 1) (n - 1) = 0 then ({ st with ip := set1 st.ip (n - 1) 0 }, n) else (st, 0)

/-- A whole decomposition. -/
noncomputable def decK (pv : NMat K → ℕ → ℕ → ℕ) (n : ℕ) (hi sc : ℕ → ℕ) (A : NMat K) (ip : ℕ → ℤ) : LuSt K × ℕ :=
  endK n (forRange 0 (n - 1) { a := A, ip := set1 ip (n - 1) 1, ret := none } (bodyK pv n hi sc))

/-- The three outcomes of a decomposition: a complete factorization and code 0; a zero first column and code 0; a nonzero
code and a singular matrix. -/
theorem decK_spec {pv : NMat K → ℕ → ℕ → ℕ} {Q : K → K → Prop} (HP : PivotOk pv Q) {n : ℕ} (hn : 1 ≤ n)
    {hi sc : ℕ → ℕ} (H : HiOk n hi sc) {A : NMat K} (hA : ∀ j i, j < n → hi j ≤ i → i < n → A i j = 0) (ip : ℕ → ℤ) :
    let r := decK pv n hi sc A ip
    (r.2 = 0 ∧ Lu Q n hi A r.1.a r.1.ip) ∨
    (r.2 = 0 ∧ 2 ≤ n ∧ (∀ i, i < n → A i 0 = 0)) ∨
    (r.2 ≠ 0 ∧ (eff n 0 A).det = 0 ∧ ((∀ i, i < n → A i 0 = 0) → n = 1)) := by
  intro r
  have I : LuInv Q n hi A (n - 1) (forRange 0 (n - 1) { a := A, ip := set1 ip (n - 1) 1, ret := none }
      (bodyK pv n hi sc)) := by
    refine forRange_ind (I := fun k st => LuInv Q n hi A k st) (Nat.zero_le _) ?_ ?_
    · refine ⟨fun _ => ⟨.zero, fun i h => by omega, by simp [set1], fun j i _ h => hA j i h, fun j i h => by omega,
        fun j i h => by omega⟩, fun r h => by simp at h⟩
    · intro k st _ hk I
      exact I.step HP H hk
  revert r
  unfold decK
  generalize forRange 0 (n - 1) { a := A, ip := set1 ip (n - 1) 1, ret := none } (bodyK pv n hi sc) = st at I
  dsimp only
  unfold endK
  cases hr : st.ret with
  | some k =>
    obtain ⟨h1, a, p, h2, h3⟩ := I.fail k hr
    dsimp only
    by_cases hk : k = 0
    · subst hk
      cases h2
      exact .inr (.inl ⟨rfl, by omega, fun i hi => h3 i (by omega) hi⟩)
    · refine .inr (.inr ⟨hk, h2.singular (by omega) h3, fun hz => ?_⟩)
      exfalso
      exact h2.first_col (by omega) hz
  | none =>
    obtain ⟨h1, h2, h3, h4, h5, h6⟩ := I.run hr
    dsimp only
    by_cases ht : st.a (n - 1) (n - 1) = 0
    · rw [if_pos ht]
      refine .inr (.inr ⟨by dsimp only; omega, h1.singular (by omega) ?_, fun hz => ?_⟩)
      · intro i i1 i2
        obtain rfl : i = n - 1 := by omega
        exact ht
      · by_contra hc
        exact h1.first_col (by omega) hz
    · rw [if_neg ht]
      refine .inl ⟨rfl, h1, ht, h2, h3, h5, fun j i hj hi => h6 j i (by omega) hj hi⟩

/-! ### Solving -/

/-- One iteration of the forward loop. -/
def fwdK (a : NMat K) (ip : ℕ → ℤ) (hi : ℕ) (b : NVec K) (k : ℕ) : NVec K :=
  forRange (k + 1) hi (set1 (set1 b (ip k).toNat (b k)) k (b (ip k).toNat)) fun c i =>
    set1 c i (c i + a i k * b (ip k).toNat)

theorem fwdK_step {n k hi : ℕ} {a : NMat K} {ip : ℕ → ℤ} (hkm : k ≤ (ip k).toNat)
    (hz : ∀ i, hi ≤ i → i < n → a i k = 0) (b : NVec K) : FwdStep n k (ip k).toNat a b (fwdK a ip hi b k) := by
  unfold fwdK
  generalize (ip k).toNat = m at *
  have base : ∀ i, set1 (set1 b m (b k)) k (b m) i = b (swp k m i) := by
    intro i
    simp only [set1, swp]
    by_cases h2 : i = k
    · simp [h2]
    · by_cases h3 : i = m
      · subst h3; simp [h2]
      · simp [h2, h3]
  have form : ∀ i, forRange (k + 1) hi (set1 (set1 b m (b k)) k (b m)) (fun c i => set1 c i (c i + a i k * b m)) i =
      if k < i ∧ i < hi then b (swp k m i) + a i k * b m else b (swp k m i) := by
    rcases Nat.le_total (k + 1) hi with hl | hl
    · refine forRange_ind (I := fun h (c : NVec K) => ∀ i, c i = if k < i ∧ i < h then b (swp k m i) + a i k * b m
        else b (swp k m i)) hl ?_ ?_
      · intro i; rw [base, if_neg (by omega)]
      · intro r c h1 h2 ih i
        simp only [set1]
        by_cases h3 : i = r
        · subst h3; rw [if_pos rfl, ih, if_neg (by omega), if_pos (by omega)]
        · rw [if_neg h3, ih]
          by_cases h4 : k < i ∧ i < r
          · rw [if_pos h4, if_pos (by omega)]
          · rw [if_neg h4, if_neg (by omega)]
    · intro i; rw [forRange_empty hl, base, if_neg (by omega)]
  constructor
  · intro i hi'
    rw [form, if_neg (by omega)]
    congr 1; unfold swp; split_ifs <;> omega
  · rw [form, if_neg (by omega), swp, if_pos rfl]
  · intro i h1 h2
    rw [form]
    by_cases h : i < hi
    · rw [if_pos ⟨h1, h⟩]
    · rw [if_neg (by omega), hz i (by omega) h2]; simp

/-- One column of the backward loop. -/
def backK (a : NMat K) (c : ℕ) (b : NVec K) : NVec K :=
  forRange 0 c (set1 b c (b c / a c c)) fun d i => set1 d i (d i - a i c * (b c / a c c))

theorem backK_step {a : NMat K} {c : ℕ} (hc : a c c ≠ 0) (b : NVec K) : BackStep c a b (backK a c b) := by
  have form : ∀ i, backK a c b i = if i < c then b i - a i c * (b c / a c c) else if i = c then b c / a c c else b i := by
    unfold backK
    refine forRange_ind (I := fun h (d : NVec K) => ∀ i, d i = if i < h then b i - a i c * (b c / a c c) else
      if i = c then b c / a c c else b i) (Nat.zero_le _) ?_ ?_
    · intro i; rw [if_neg (by omega)]; rfl
    · intro r d h1 h2 ih i
      simp only [set1]
      by_cases h3 : i = r
      · subst h3; rw [if_pos rfl, ih, if_neg (by omega), if_neg (by omega), if_pos (by omega)]
      · rw [if_neg h3, ih]
        by_cases h4 : i < r
        · rw [if_pos h4, if_pos (by omega)]
        · rw [if_neg h4, if_neg (show ¬ i < r + 1 by omega)]
  have hcc : backK a c b c = b c / a c c := by rw [form, if_neg (by omega), if_pos rfl]
  refine ⟨?_, ?_, ?_⟩
  · rw [hcc]; field_simp
  · intro i hi; rw [hcc, form, if_pos hi]
  · intro i hi; rw [form, if_neg (by omega), if_neg (by omega)]

/-- A whole solve. -/
def solK (n : ℕ) (hi : ℕ → ℕ) (a : NMat K) (b : NVec K) (ip : ℕ → ℤ) : NVec K :=
  forRange 0 n (forRange 0 (n - 1) b fun b k => fwdK a ip (hi k) b k) fun b k => backK a (n - 1 - k) b

theorem Lu.diag {Q : K → K → Prop} {n : ℕ} {hi : ℕ → ℕ} {A a : NMat K} {ip : ℕ → ℤ} (L : Lu Q n hi A a ip) (i : ℕ)
    (hi : i < n) : a i i ≠ 0 := by
  by_cases h : i < n - 1
  · exact L.run.diag.1 i h
  · obtain rfl : i = n - 1 := by omega
    exact L.last

theorem solK_spec {Q : K → K → Prop} {n : ℕ} {hi : ℕ → ℕ} {A a : NMat K} {ip : ℕ → ℤ} (L : Lu Q n hi A a ip)
    (b : NVec K) : eff n 0 A *ᵥ cut n (solK n hi a b ip) = cut n b := by
  have hf : FwdRun n a (fun i => (ip i).toNat) b (n - 1) (forRange 0 (n - 1) b fun b k => fwdK a ip (hi k) b k) := by
    have : ∀ k, k ≤ n - 1 → FwdRun n a (fun i => (ip i).toNat) b k (forRange 0 k b fun b k => fwdK a ip (hi k) b k) := by
      intro k
      induction k with
      | zero => intro _; rw [forRange_empty le_rfl]; exact .zero
      | succ k ih =>
        intro hk
        rw [forRange_succ (Nat.zero_le _)]
        exact .succ (ih (by omega)) (fwdK_step (L.run.diag.2.2 k (by omega)).1 (L.zero k · (by omega)) _)
    exact this _ le_rfl
  unfold solK
  generalize forRange 0 (n - 1) b (fun b k => fwdK a ip (hi k) b k) = c at hf
  refine L.run.solve hf (BackSteps.backRun ?_)
  have : ∀ k, k ≤ n → BackSteps n a c k (forRange 0 k c fun b k => backK a (n - 1 - k) b) := by
    intro k
    induction k with
    | zero => intro _; rw [forRange_empty le_rfl]; exact .zero
    | succ k ih =>
      intro hk
      rw [forRange_succ (Nat.zero_le _)]
      exact .succ (ih (by omega)) (backK_step (L.diag _ (by omega)) _)
  exact this _ le_rfl

theorem Lu.det {Q : K → K → Prop} {n : ℕ} (hn : 1 ≤ n) {hi : ℕ → ℕ} {A a : NMat K} {ip : ℕ → ℤ} (L : Lu Q n hi A a ip) :
    (eff n 0 A).det = (ip (n - 1) : K) * ∏ i ∈ Finset.range n, a i i := by
  rw [L.run.det, eff_last_det _ (by omega), L.sign]
  congr 1
  push_cast
  refine Finset.prod_congr rfl fun i _ => ?_
  split_ifs <;> simp

theorem Lu.det_ne {Q : K → K → Prop} {n : ℕ} (hn : 1 ≤ n) {hi : ℕ → ℕ} {A a : NMat K} {ip : ℕ → ℤ}
    (L : Lu Q n hi A a ip) : (eff n 0 A).det ≠ 0 := by
  rw [L.run.det, eff_last_det _ (by omega)]
  refine mul_ne_zero ?_ ?_
  · rw [Finset.prod_ne_zero_iff]; intro i _; split_ifs <;> simp
  · rw [Finset.prod_ne_zero_iff]; intro i h; exact L.diag i (Finset.mem_range.1 h)

theorem Lu.sign_sq {Q : K → K → Prop} {n : ℕ} {hi : ℕ → ℕ} {A a : NMat K} {ip : ℕ → ℤ} (L : Lu Q n hi A a ip) :
    ip (n - 1) = 1 ∨ ip (n - 1) = -1 := by
  rw [L.sign]
  generalize n - 1 = k
  induction k with
  | zero => simp
  | succ k ih =>
    rw [Finset.prod_range_succ]
    rcases ih with h | h <;> rw [h] <;> split_ifs <;> simp

/-- The solution is unique. -/
theorem eff_unique {n : ℕ} {A : NMat K} (h : (eff n 0 A).det ≠ 0) {x y : Fin n → K}
    (e : eff n 0 A *ᵥ x = eff n 0 A *ᵥ y) : x = y := by
  have : Function.Injective (eff n 0 A).mulVec := by
    apply Matrix.mulVec_injective_of_isUnit
    rw [Matrix.isUnit_iff_isUnit_det]; exact isUnit_iff_ne_zero.2 h
  exact this e

end Linalg
end Cyphus
