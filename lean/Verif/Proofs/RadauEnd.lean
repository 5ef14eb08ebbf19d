import Verif.Proofs.RadauX
import Verif.Proofs.ElimCode
/-!
# `Radau5` after the end of the run: factorizing with a step of size zero
-/

namespace Cyphus
open X
set_option autoImplicit false
set_option linter.unusedSectionVars false
noncomputable section

/-- Not a finite number. -/
def X.NonFin (x : X) : Prop := ∀ r, x ≠ fin r

namespace X.NonFin

theorem add {x : X} (h : x.NonFin) (y : X) : (x + y).NonFin := by
  cases x <;> cases y <;> intro r e <;> first | exact absurd rfl (h _) | (injection e) | (cases e)

theorem neg {x : X} (h : x.NonFin) : (-x).NonFin := by
  cases x <;> intro r e <;> first | exact absurd rfl (h _) | (injection e) | (cases e)

theorem sub {x : X} (h : x.NonFin) (y : X) : (x - y).NonFin := h.add (-y)

theorem infSign (a : ℝ) : (infSign a).NonFin := by
  intro r e
  unfold X.infSign at e
  split at e
  · injection e
  · split at e <;> injection e

theorem mul {x : X} (h : x.NonFin) (y : X) : (x * y).NonFin := by
  cases x <;> cases y <;>
    first
      | exact absurd rfl (h _)
      | exact infSign _
      | (intro r e; injection e)
      | (intro r e; cases e)

theorem abs {x : X} (h : x.NonFin) : (Fl.abs x).NonFin := by
  cases x <;> intro r e <;> first | exact absurd rfl (h _) | (injection e) | (cases e)

theorem eq_zero {x : X} (h : x.NonFin) : Fl.eq x (0.0 : X) = false := by
  cases x with
  | fin r => exact absurd rfl (h r)
  | _ => rfl

end X.NonFin

namespace Linalg

/-- All entries with indices below `n` are not finite. -/
def NF (n : ℕ) (a : NMat X) : Prop := ∀ i j, i < n → j < n → (a i j).NonFin

theorem NF.set {n : ℕ} {a : NMat X} (h : NF n a) (i j : ℕ) {x : X} (hx : x.NonFin) : NF n (set2 a i j x) := by
  intro i' j' h1 h2
  unfold set2
  split
  · exact hx
  · exact h i' j' h1 h2

section
variable {F : Type} [Add F] [Sub F] [Mul F] [Div F] [Neg F] [OfScientific F] [Fl F]

theorem pivot_range (a : NMat F) {k hi : ℕ} (h : k < hi) : k ≤ pivot a k hi ∧ pivot a k hi < hi := by
  unfold pivot
  refine forRange_ind (I := fun h m => k ≤ m ∧ m < h) h ⟨le_rfl, by omega⟩ ?_
  intro r m h1 h2 ⟨i1, i2⟩
  split <;> omega

theorem pivotc_range (a b : NMat F) {k hi : ℕ} (h : k < hi) : k ≤ pivotc a b k hi ∧ pivotc a b k hi < hi := by
  unfold pivotc
  refine forRange_ind (I := fun h m => k ≤ m ∧ m < h) h ⟨le_rfl, by omega⟩ ?_
  intro r m h1 h2 ⟨i1, i2⟩
  split <;> omega

end

/-- A loop preserves what its body preserves. -/
theorem forRange_inv {σ : Type} {I : σ → Prop} {lo hi : ℕ} {s : σ} {f : σ → ℕ → σ} (h0 : I s)
    (h1 : ∀ s i, lo ≤ i → i < hi → I s → I (f s i)) : I (forRange lo hi s f) := by
  by_cases h : lo ≤ hi
  · exact forRange_ind (I := fun _ s => I s) h h0 (fun i s h2 h3 h4 => h1 s i h2 h3 h4)
  · rw [forRange_empty (by omega)]; exact h0

theorem dec_nonfin {n : ℕ} (hn : n ≠ 0) {a : NMat X} (h : NF n a) (ip : ℕ → ℤ) : ∃ r, dec n a ip = .ok (r, 0) := by
  have body : ∀ (st : LuSt X) (k : ℕ), k < n → (NF n st.a ∧ st.ret = none) →
      NF n (decBody n st k).a ∧ (decBody n st k).ret = none := by
    rintro st k hk ⟨h1, h2⟩
    have hm := pivot_range st.a hk
    unfold decBody
    simp only [h2]
    set m := pivot st.a k n
    have ht : (st.a m k).NonFin := h1 _ _ hm.2 hk
    rw [if_neg (by rw [ht.eq_zero]; simp)]
    have hsw : NF n (swapPivot n st k m).a ∧ (swapPivot n st k m).ret = none := by
      unfold swapPivot
      simp only
      split
      · exact ⟨(h1.set _ _ (h1 _ _ hk hk)).set _ _ ht, h2⟩
      · exact ⟨h1, h2⟩
    refine ⟨?_, hsw.2⟩
    apply forRange_inv (I := NF n)
    · unfold scaleCol
      apply forRange_inv (I := NF n) hsw.1
      intro a i h3 h4 ha
      exact ha.set _ _ ((ha _ _ h4 hk).mul _)
    · intro a j h3 h4 ha
      unfold elimCol
      simp only
      have e : NF n (set2 (set2 a m j (a k j)) k j (a m j)) :=
        (ha.set _ _ (ha _ _ hk h4)).set _ _ (ha _ _ hm.2 h4)
      split
      · apply forRange_inv (I := NF n) e
        intro a i h5 h6 ha
        exact ha.set _ _ ((ha _ _ h6 h4).add _)
      · exact e
  have key : ∀ st : LuSt X, NF n st.a ∧ st.ret = none → ∃ r, decEnd n st = (r, 0) := by
    rintro st ⟨h1, h2⟩
    unfold decEnd
    rw [h2]
    have := (h1 (n - 1) (n - 1) (by omega) (by omega)).eq_zero
    simp [this]
  unfold dec
  rw [if_neg hn]
  simp only
  obtain ⟨r, hr⟩ := key (if n ≠ 1 then forRange 0 (n - 1) { a := a, ip := set1 ip (n - 1) 1, ret := none } (decBody n)
    else { a := a, ip := set1 ip (n - 1) 1, ret := none }) (by
      split
      · apply forRange_inv (I := fun st : LuSt X => NF n st.a ∧ st.ret = none) ⟨h, rfl⟩
        intro st k _ hk hst
        exact body st k (by omega) hst
      · exact ⟨h, rfl⟩)
  exact ⟨r, by rw [hr]⟩

theorem decc_nonfin {n : ℕ} (hn : n ≠ 0) {a b : NMat X} (h : NF n a) (h' : NF n b) (ip : ℕ → ℤ) :
    ∃ r, decc n a b ip = .ok (r, 0) := by
  have body : ∀ (st : LucSt X) (k : ℕ), k < n → (NF n st.ar ∧ NF n st.ai ∧ st.ret = none) →
      NF n (deccBody n (fun _ => n) st k).ar ∧ NF n (deccBody n (fun _ => n) st k).ai ∧
        (deccBody n (fun _ => n) st k).ret = none := by
    rintro st k hk ⟨h1, h1', h2⟩
    have hm := pivotc_range st.ar st.ai hk
    unfold deccBody
    simp only [h2]
    set m := pivotc st.ar st.ai k n
    have ht : (st.ar m k).NonFin := h1 _ _ hm.2 hk
    have ht' : (st.ai m k).NonFin := h1' _ _ hm.2 hk
    rw [if_neg (by rw [(ht.abs.add _).eq_zero]; simp)]
    have hsw : NF n (swapPivotc n st k m).ar ∧ NF n (swapPivotc n st k m).ai ∧ (swapPivotc n st k m).ret = none := by
      unfold swapPivotc
      simp only
      split
      · exact ⟨(h1.set _ _ (h1 _ _ hk hk)).set _ _ ht, (h1'.set _ _ (h1' _ _ hk hk)).set _ _ ht', h2⟩
      · exact ⟨h1, h1', h2⟩
    have hp : ∀ (p : NMat X × NMat X), NF n p.1 ∧ NF n p.2 → ∀ tr ti,
        NF n (forRange (k + 1) n (scaleColc p k (k + 1) n tr ti) (elimColc k m n)).1 ∧
        NF n (forRange (k + 1) n (scaleColc p k (k + 1) n tr ti) (elimColc k m n)).2 := by
      intro p hp tr ti
      apply forRange_inv (I := fun p : NMat X × NMat X => NF n p.1 ∧ NF n p.2)
      · unfold scaleColc
        apply forRange_inv (I := fun p : NMat X × NMat X => NF n p.1 ∧ NF n p.2) hp
        intro p i h3 h4 hp
        exact ⟨hp.1.set _ _ (((hp.1 _ _ h4 hk).mul _).sub _).neg, hp.2.set _ _ (((hp.2 _ _ h4 hk).mul _).add _).neg⟩
      · intro p j h3 h4 hp
        unfold elimColc
        simp only
        have e1 : NF n (set2 (set2 p.1 m j (p.1 k j)) k j (p.1 m j)) :=
          (hp.1.set _ _ (hp.1 _ _ hk h4)).set _ _ (hp.1 _ _ hm.2 h4)
        have e2 : NF n (set2 (set2 p.2 m j (p.2 k j)) k j (p.2 m j)) :=
          (hp.2.set _ _ (hp.2 _ _ hk h4)).set _ _ (hp.2 _ _ hm.2 h4)
        split
        · exact ⟨e1, e2⟩
        · split
          · apply forRange_inv (I := fun p : NMat X × NMat X => NF n p.1 ∧ NF n p.2) ⟨e1, e2⟩
            intro p i h5 h6 hp
            exact ⟨hp.1.set _ _ ((hp.1 _ _ h6 h4).add _), hp.2.set _ _ ((hp.2 _ _ h6 h4).add _)⟩
          · split
            · apply forRange_inv (I := fun p : NMat X × NMat X => NF n p.1 ∧ NF n p.2) ⟨e1, e2⟩
              intro p i h5 h6 hp
              exact ⟨hp.1.set _ _ ((hp.1 _ _ h6 h4).add _), hp.2.set _ _ ((hp.2 _ _ h6 h4).add _)⟩
            · apply forRange_inv (I := fun p : NMat X × NMat X => NF n p.1 ∧ NF n p.2) ⟨e1, e2⟩
              intro p i h5 h6 hp
              exact ⟨hp.1.set _ _ ((hp.1 _ _ h6 h4).add _), hp.2.set _ _ ((hp.2 _ _ h6 h4).add _)⟩
    exact ⟨(hp (_, _) ⟨hsw.1, hsw.2.1⟩ _ _).1, (hp (_, _) ⟨hsw.1, hsw.2.1⟩ _ _).2, hsw.2.2⟩
  have key : ∀ st : LucSt X, (NF n st.ar ∧ NF n st.ai ∧ st.ret = none) → ∃ r, deccEnd n st = (r, 0) := by
    rintro st ⟨h1, -, h2⟩
    unfold deccEnd
    rw [h2]
    have := ((h1 (n - 1) (n - 1) (by omega) (by omega)).abs.add (Fl.abs (st.ai (n - 1) (n - 1)))).eq_zero
    simp [this]
  unfold decc
  rw [if_neg hn]
  simp only
  obtain ⟨r, hr⟩ := key (if n ≠ 1 then forRange 0 (n - 1) { ar := a, ai := b, ip := set1 ip (n - 1) 1, ret := none }
    (deccBody n fun _ => n) else { ar := a, ai := b, ip := set1 ip (n - 1) 1, ret := none }) (by
      split
      · apply forRange_inv (I := fun st : LucSt X => NF n st.ar ∧ NF n st.ai ∧ st.ret = none) ⟨h, h', rfl⟩
        intro st k _ hk hst
        exact body st k (by omega) hst
      · exact ⟨h, h', rfl⟩)
  exact ⟨r, by rw [hr]⟩

end Linalg

namespace Radau
variable {n : ℕ} {P : Type}

/-- With a step of size zero both factorizations succeed. -/
theorem perform_zero (hn : n ≠ 0) {s : St X n P} (h : s.dt = fin 0) :
    ∃ s', perform_decompositions s = .ok (s', true) ∧ s'.dt = s.dt ∧ s'.stats.steps = s.stats.steps := by
  have hz : ∀ c : ℝ, 0 < c → fin c / s.dt = pinf := by
    intro c hc
    rw [h, div_fin_zero, infSign, if_pos hc]
  have hU : (U1 : X) / s.dt = pinf := hz _ (by norm_num)
  have hA : (ALPHA : X) / s.dt = pinf := hz _ (by norm_num)
  have hB : (BETA : X) / s.dt = pinf := hz _ (by norm_num)
  have hp : (pinf : X).NonFin := fun r e => by injection e
  have nf : ∀ a : Mat n X, (∀ i j, (a i j).NonFin) → Linalg.NF n (extM a) := by
    intro a ha i j hi hj
    unfold extM
    rw [dif_pos ⟨hi, hj⟩]
    exact ha _ _
  obtain ⟨r, hr⟩ := Linalg.dec_nonfin hn (nf (fun i j => (U1 : X) / s.dt * eye i j - s.cache.dfdu i j)
    fun i j => by rw [hU]; exact (hp.mul _).sub _) s.cache.ip1
  obtain ⟨r', hr'⟩ := Linalg.decc_nonfin hn (nf (fun i j => (ALPHA : X) / s.dt * eye i j - s.cache.dfdu i j)
    fun i j => by rw [hA]; exact (hp.mul _).sub _) (nf (fun i j => (BETA : X) / s.dt * eye i j)
    fun i j => by rw [hB]; exact hp.mul _) s.cache.ip2
  unfold perform_decompositions decomp_real
  simp only [hr, Res.bind, if_true]
  unfold decomp_complex
  simp only [hr', Res.bind, if_true]
  exact ⟨_, rfl, rfl, rfl⟩

/-- At the end of a forward run: the final time, some non-negative step. -/
structure AtEnd (tf : ℝ) (s : St X n P) : Prop where
  time : s.t = fin tf
  tfinal : s.tfinal = fin tf
  tdir : s.tdir = fin 1
  step : ∃ x, s.dt = fin x ∧ 0 ≤ x

/-- A further call of `step()` at the end. -/
theorem AtEnd.run_step {tf : ℝ} (hn : n ≠ 0) {s : St X n P} (H : AtEnd tf s) :
    ∃ s', Radau.step 1 s = .ok s' ∧ AtEnd tf s' ∧ s'.u = s.u ∧ s'.sol.ts = s.sol.ts ∧ s'.sol.us = s.sol.us ∧
      s'.stats.steps = s.stats.steps + 1 ∧ s'.stats.accepts = s.stats.accepts ∧ s'.opts = s.opts ∧
      s'.sol.retcode = if s.opts.max_steps ≤ s.stats.steps + 1 then .MaxIters else .DtLessThanMin := by
  obtain ⟨x, hx, x0⟩ := H.step
  have hcl : clampLast s = { s with dt := fin 0, cache := { s.cache with last := true } } := by
    unfold clampLast
    rw [H.time, H.tfinal, H.tdir, hx, show (1.0001 : X) = fin 1.0001 from rfl, show (0.0 : X) = fin 0.0 from rfl,
      mul_fin, mul_fin, add_fin, sub_fin, ge_fin, if_pos]
    · rw [sub_fin, sub_self]
    · simp only [decide_eq_true_eq]
      have : (0:ℝ) ≤ x * 1.0001 := by positivity
      norm_num at this ⊢
      linarith
  obtain ⟨s1, h1, h2, h3⟩ : ∃ s1, decPhase 1 (clampLast s) = .ok (s1, true) ∧ s1.dt = fin 0 ∧
      s1.stats.steps = s.stats.steps := by
    rw [hcl]
    unfold decPhase
    split
    · obtain ⟨s1, h1, h2, h3⟩ := perform_zero hn
        (s := { s with dt := fin 0, cache := { s.cache with last := true } }) rfl
      exact ⟨s1, by rw [decLoop, h1]; rfl, h2, h3⟩
    · exact ⟨_, rfl, rfl, rfl⟩
  have hf := Frame.decPhase h1
  rw [hcl] at hf
  have key : ∀ c : RetCode, AtEnd tf (setCode c (tick s1)) := fun c =>
    ⟨hf.t.trans H.time, hf.tfinal.trans H.tfinal, hf.tdir.trans H.tdir, 0, h2, le_rfl⟩
  have hsm : Fl.le (0.1 * Fl.abs s1.dt) (Fl.abs s1.t * Fl.eps) = true := by
    have := RealFl.eps_pos
    rw [h2, hf.t, H.time, abs_fin, show (0.1 : X) = fin 0.1 from rfl, mul_fin, abs_fin, eps_fin, mul_fin, le_fin]
    simp only [abs_zero, mul_zero, decide_eq_true_eq]
    positivity
  by_cases hm : s.opts.max_steps ≤ s.stats.steps + 1
  · refine ⟨setCode .MaxIters (tick s1), ?_, key _, hf.u, hf.ts, hf.us, by rw [← h3]; rfl, hf.accepts, hf.opts, by
      rw [if_pos hm]; rfl⟩
    rw [Radau.step, stepLoop, h1]
    simp only [Res.bind, Bool.not_true, Bool.false_eq_true, if_false]
    rw [if_pos (by rw [h3, hf.opts]; exact hm)]
    rfl
  · refine ⟨setCode .DtLessThanMin (tick s1), ?_, key _, hf.u, hf.ts, hf.us, by rw [← h3]; rfl, hf.accepts, hf.opts, by
      rw [if_neg hm]; rfl⟩
    rw [Radau.step, stepLoop, h1]
    simp only [Res.bind, Bool.not_true, Bool.false_eq_true, if_false]
    rw [if_neg (by rw [h3, hf.opts]; exact hm), if_pos hsm]
    rfl

end Radau
end
end Cyphus
