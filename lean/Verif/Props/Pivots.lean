import Verif.Props.Finite
import Verif.Props.LinearSolve
/-!
# The linear solvers only use indices below the size of the system (C66)
-/

namespace Cyphus
open Linalg
set_option autoImplicit false
set_option linter.unusedSectionVars false

section
variable {F : Type} [Add F] [Sub F] [Mul F] [Div F] [Neg F] [OfScientific F] [Fl F]

/-- The pivots a solver of size `n` reads are indices of rows. -/
def Spec.PivotsInRange (n : ℕ) (ip : ℕ → ℤ) : Prop := ∀ k, k < n - 1 → 0 ≤ ip k ∧ ip k < n

/-- The same values at all indices below `n`. -/
def Spec.SameVec (n : ℕ) (b b' : ℕ → F) : Prop := ∀ i, i < n → b i = b' i
/-- The same values at all indices below `n`. -/
def Spec.SameMat (n : ℕ) (a a' : ℕ → ℕ → F) : Prop := ∀ i j, i < n → j < n → a i j = a' i j

/-- **C66** Given pivots in range, `dec` leaves pivots in range, also when it fails (for a matrix with a first column of
zeros it returns the code of success after setting the first pivot only, see C35). -/
theorem C66_dec_pivots {n : ℕ} {a : NMat F} {ip : ℕ → ℤ} {st : LuSt F} {ier : ℕ} (h : Spec.PivotsInRange n ip)
    (hd : dec n a ip = .ok (st, ier)) : Spec.PivotsInRange n st.ip := IpOk.dec h hd

/-- **C66** The same for `decc`. -/
theorem C66_decc_pivots {n : ℕ} {ar ai : NMat F} {ip : ℕ → ℤ} {st : LucSt F} {ier : ℕ} (h : Spec.PivotsInRange n ip)
    (hd : decc n ar ai ip = .ok (st, ier)) : Spec.PivotsInRange n st.ip := IpOk.decc h hd

namespace Linalg

theorem forRange_rel {σ τ : Type} {R : σ → τ → Prop} {lo hi : ℕ} {f : σ → ℕ → σ} {g : τ → ℕ → τ}
    (h1 : ∀ s t i, lo ≤ i → i < hi → R s t → R (f s i) (g t i)) {s : σ} {t : τ} (h : R s t) :
    R (forRange lo hi s f) (forRange lo hi t g) := by
  by_cases hl : lo ≤ hi
  · induction hi, hl using Nat.le_induction with
    | base => rw [forRange_empty le_rfl, forRange_empty le_rfl]; exact h
    | succ k hk ih =>
      rw [forRange_succ hk, forRange_succ hk]
      exact h1 _ _ k hk (by omega) (ih fun s t i a b => h1 s t i a (by omega))
  · rw [forRange_empty (by omega), forRange_empty (by omega)]; exact h

/-- Two vectors that agree below `n`; beyond they are as given. -/
structure Rel (n : ℕ) (c c' b b' : NVec F) : Prop where
  lo : ∀ i, i < n → b i = b' i
  hi : ∀ i, n ≤ i → b i = c i
  hi' : ∀ i, n ≤ i → b' i = c' i

theorem Rel.set {n k : ℕ} {c c' b b' : NVec F} (h : Rel n c c' b b') (hk : k < n) {x y : F} (e : x = y) :
    Rel n c c' (set1 b k x) (set1 b' k y) := by
  refine ⟨fun i hi => ?_, fun i hi => ?_, fun i hi => ?_⟩ <;> unfold set1
  · split
    · exact e
    · exact h.lo i hi
  · rw [if_neg (by omega)]; exact h.hi i hi
  · rw [if_neg (by omega)]; exact h.hi' i hi

theorem Rel.sol {n : ℕ} {a a' : NMat F} {c c' b b' : NVec F} {ip : ℕ → ℤ} (hn : n ≠ 0)
    (ha : Spec.SameMat n a a') (hip : IpOk n ip) (h : Rel n c c' b b') :
    Rel n c c' (sol n a b ip) (sol n a' b' ip) := by
  have h1 : Rel n c c' (if n ≠ 1 then forRange 0 (n - 1) (forRange 0 (n - 1) b (fwdStep a ip n)) (backStep a n) else b)
      (if n ≠ 1 then forRange 0 (n - 1) (forRange 0 (n - 1) b' (fwdStep a' ip n)) (backStep a' n) else b') := by
    split
    · refine forRange_rel (R := Rel n c c') (fun b b' k _ hk h => ?_)
        (forRange_rel (R := Rel n c c') (fun b b' k _ hk h => ?_) h)
      · have hd : Rel n c c' (set1 b (n - k - 2 + 1) (b (n - k - 2 + 1) / a (n - k - 2 + 1) (n - k - 2 + 1)))
            (set1 b' (n - k - 2 + 1) (b' (n - k - 2 + 1) / a' (n - k - 2 + 1) (n - k - 2 + 1))) :=
          h.set (by omega) (by rw [h.lo _ (by omega), ha _ _ (by omega) (by omega)])
        refine forRange_rel (R := Rel n c c') (fun e e' i _ hi h => ?_) hd
        refine Rel.set h (show i < n by omega) ?_
        rw [h.lo i (by omega), ha i _ (by omega) (by omega), hd.lo _ (by omega)]
      · have hp := hip k hk
        have hm : (ip k).toNat < n := by omega
        have hd : Rel n c c' (set1 (set1 b (ip k).toNat (b k)) k (b (ip k).toNat))
            (set1 (set1 b' (ip k).toNat (b' k)) k (b' (ip k).toNat)) :=
          (h.set hm (h.lo k (by omega))).set (by omega) (h.lo _ hm)
        refine forRange_rel (R := Rel n c c') (fun e e' i _ hi h2 => ?_) hd
        refine Rel.set h2 (show i < n by omega) ?_
        rw [h2.lo i (by omega), ha i _ (by omega) (by omega), h.lo _ hm]
    · exact h
  unfold Linalg.sol
  exact h1.set (by omega) (by rw [h1.lo 0 (by omega), ha 0 0 (by omega) (by omega)])

end Linalg

/-- **C66** With pivots in range, `sol` neither reads nor writes anything outside of the `n × n` matrix and the first `n`
entries of the vector: changing the rest does not change the result, and the rest is left alone. -/
theorem C66_sol_in_range {n : ℕ} (hn : n ≠ 0) {a a' : NMat F} {b b' : NVec F} {ip : ℕ → ℤ}
    (hip : Spec.PivotsInRange n ip) (ha : Spec.SameMat n a a') (hb : Spec.SameVec n b b') :
    Spec.SameVec n (sol n a b ip) (sol n a' b' ip) ∧ ∀ i, n ≤ i → sol n a b ip i = b i := by
  have h := Rel.sol hn ha hip ⟨hb, fun _ _ => rfl, fun _ _ => rfl⟩
  exact ⟨h.lo, h.hi⟩

namespace Linalg

/-- The relation for pairs. -/
def Relc (n : ℕ) (c c' b b' : NVec F × NVec F) : Prop := Rel n c.1 c'.1 b.1 b'.1 ∧ Rel n c.2 c'.2 b.2 b'.2

theorem Relc.set {n k : ℕ} {c c' b b' : NVec F × NVec F} (h : Relc n c c' b b') (hk : k < n) {x y z w : F} (e : x = y)
    (e' : z = w) : Relc n c c' (set1 b.1 k x, set1 b.2 k z) (set1 b'.1 k y, set1 b'.2 k w) :=
  ⟨h.1.set hk e, h.2.set hk e'⟩

theorem Relc.div {n k : ℕ} {ar ai ar' ai' : NMat F} {c c' b b' : NVec F × NVec F} (hr : Spec.SameMat n ar ar')
    (hi : Spec.SameMat n ai ai') (h : Relc n c c' b b') (hk : k < n) :
    Relc n c c' (divDiagc ar ai b k) (divDiagc ar' ai' b' k) := by
  have e1 := hr k k hk hk
  have e2 := hi k k hk hk
  have e3 := h.1.lo k hk
  have e4 := h.2.lo k hk
  unfold divDiagc
  exact h.set hk (by rw [e1, e2, e3, e4]) (by rw [e1, e2, e3, e4])

theorem Relc.solc {n : ℕ} {ar ai ar' ai' : NMat F} {c c' b b' : NVec F × NVec F} {ip : ℕ → ℤ} (hn : n ≠ 0)
    (hr : Spec.SameMat n ar ar') (hi : Spec.SameMat n ai ai') (hip : IpOk n ip) (h : Relc n c c' b b') :
    Relc n c c' (solc n ar ai b ip) (solc n ar' ai' b' ip) := by
  unfold Linalg.solc
  refine Relc.div hr hi ?_ (by omega)
  split
  · refine forRange_rel (R := Relc n c c') (fun b b' k _ hk h => ?_)
      (forRange_rel (R := Relc n c c') (fun b b' k _ hk h => ?_) h)
    · have hd := Relc.div hr hi h (show n - k - 2 + 1 < n by omega)
      refine forRange_rel (R := Relc n c c') (fun e e' i _ hi' h => ?_) hd
      refine Relc.set h (show i < n by omega) ?_ ?_
      · rw [h.1.lo i (by omega), hr i _ (by omega) (by omega), hi i _ (by omega) (by omega), hd.1.lo _ (by omega),
          hd.2.lo _ (by omega)]
      · rw [h.2.lo i (by omega), hr i _ (by omega) (by omega), hi i _ (by omega) (by omega), hd.1.lo _ (by omega),
          hd.2.lo _ (by omega)]
    · have hp := hip k hk
      have hm : (ip k).toNat < n := by omega
      have hd : Relc n c c'
          (set1 (set1 b.1 (ip k).toNat (b.1 k)) k (b.1 (ip k).toNat), set1 (set1 b.2 (ip k).toNat (b.2 k)) k (b.2 (ip k).toNat))
          (set1 (set1 b'.1 (ip k).toNat (b'.1 k)) k (b'.1 (ip k).toNat),
            set1 (set1 b'.2 (ip k).toNat (b'.2 k)) k (b'.2 (ip k).toNat)) :=
        ⟨(h.1.set hm (h.1.lo k (by omega))).set (by omega) (h.1.lo _ hm),
         (h.2.set hm (h.2.lo k (by omega))).set (by omega) (h.2.lo _ hm)⟩
      refine forRange_rel (R := Relc n c c') (fun e e' i _ hi' h2 => ?_) hd
      refine Relc.set h2 (show i < n by omega) ?_ ?_
      · rw [h2.1.lo i (by omega), hr i _ (by omega) (by omega), hi i _ (by omega) (by omega), h.1.lo _ hm, h.2.lo _ hm]
      · rw [h2.2.lo i (by omega), hr i _ (by omega) (by omega), hi i _ (by omega) (by omega), h.1.lo _ hm, h.2.lo _ hm]
  · exact h

end Linalg

/-- **C66** The same for `solc`. -/
theorem C66_solc_in_range {n : ℕ} (hn : n ≠ 0) {ar ai ar' ai' : NMat F} {b b' : NVec F × NVec F} {ip : ℕ → ℤ}
    (hip : Spec.PivotsInRange n ip) (hr : Spec.SameMat n ar ar') (hi : Spec.SameMat n ai ai')
    (h1 : Spec.SameVec n b.1 b'.1) (h2 : Spec.SameVec n b.2 b'.2) :
    Spec.SameVec n (solc n ar ai b ip).1 (solc n ar' ai' b' ip).1 ∧
    Spec.SameVec n (solc n ar ai b ip).2 (solc n ar' ai' b' ip).2 ∧
    ∀ i, n ≤ i → (solc n ar ai b ip).1 i = b.1 i ∧ (solc n ar ai b ip).2 i = b.2 i := by
  have h := Relc.solc (c := b) (c' := b') hn hr hi hip ⟨⟨h1, fun _ _ => rfl, fun _ _ => rfl⟩, ⟨h2, fun _ _ => rfl, fun _ _ => rfl⟩⟩
  exact ⟨h.1.lo, h.2.lo, fun i hi => ⟨h.1.hi i hi, h.2.hi i hi⟩⟩

/-- **C66** During every run of `Radau5`, in any arithmetic and for every right-hand side, all pivots are in range. -/
theorem C66_pivots_radau [FlInf F] {n : ℕ} {P : Type} {b : Builder F n P} {s0 s : Radau.St F n P}
    (hb : b.build Radau.alg = .ok s0)
    (hs : (∃ k, SomeSteps Radau.alg none k s0 s) ∨ IntegrateReturns Radau.alg none s0 s) :
    Spec.PivotsInRange n s.cache.ip1 ∧ Spec.PivotsInRange n s.cache.ip2 :=
  Radau.run_induct hb (I := Radau.Pivots) (Radau.build_pivots hb) (fun _ h hst => h.step hst) hs

/-- Rows are really exchanged: the matrix `0 1; 1 0`. -/
example : ∃ st, dec 2 flip2 (fun _ => 0) = .ok (st, 0) ∧ Spec.PivotsInRange 2 st.ip ∧ st.ip 0 = 1 := by
  obtain ⟨st, h, -⟩ := C34_nonsingular (n := 2) (by omega) (A := flip2) (by rw [flip2_det]; norm_num) (fun _ => 0)
  refine ⟨st, h, C66_dec_pivots (fun k hk => ⟨le_rfl, by omega⟩) h, ?_⟩
  have hp : pivot flip2 0 2 = 1 := by
    unfold pivot
    rw [forRange_succ (by omega), forRange_empty (by omega)]
    have : Fl.gt (Fl.abs (flip2 1 0)) (Fl.abs (flip2 0 0)) = true := by
      change decide _ = true
      simp [flip2, Fl.abs]
    rw [if_pos this]
  have e := congrArg (fun p => p.1.ip 0) (Res.ok.inj h)
  rw [← e]
  simp only [if_pos (show 2 ≠ 1 by omega), forRange_succ (show 0 ≤ 0 by omega),
    forRange_empty (show 0 ≤ 0 by omega), decBody, hp, swapPivot, decEnd]
  have ht : Fl.eq (flip2 1 0) 0.0 = false := by
    change decide _ = false
    norm_num [flip2]
  simp only [ht, Bool.false_eq_true, if_false, if_pos (show 1 ≠ 0 by omega)]
  split <;> simp [set1]

/-- A run of `Radau5`. -/
example : ∃ s0 s : Radau.St X 1 Unit, (cliff Radau.alg).build Radau.alg = .ok s0 ∧
    IntegrateReturns Radau.alg none s0 s ∧ Spec.PivotsInRange 1 s.cache.ip1 := by
  obtain ⟨s0, hb⟩ : ∃ s0, (cliff Radau.alg).build Radau.alg = .ok s0 := ⟨_, rfl⟩
  obtain ⟨s, hs⟩ := C12_integrate_terminates_radau one_ne_zero s0
  exact ⟨s0, s, hb, ⟨_, hs⟩, (C66_pivots_radau hb (.inr ⟨_, hs⟩)).1⟩

end
end Cyphus
