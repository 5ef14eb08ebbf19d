import Verif.Proofs.RadauStep
/-!
# The factorizations `Radau5` uses (any arithmetic)
-/

namespace Cyphus
namespace Radau
set_option linter.unusedSectionVars false
set_option autoImplicit false
variable {F : Type} {n : Nat} {P : Type}
  [Add F] [Sub F] [Mul F] [Div F] [Neg F] [OfScientific F] [Fl F]

/-- Everything the linear solves use. -/
structure Facs (F : Type) (n : Nat) where
  fac1 : F
  alphn : F
  betan : F
  e1 : Mat n F
  e2r : Mat n F
  e2i : Mat n F
  ip1 : Nat → Int
  ip2 : Nat → Int

def facsOf (s : St F n P) : Facs F n :=
  ⟨s.cache.fac1, s.cache.alphn, s.cache.betan, s.cache.e1, s.cache.e2r, s.cache.e2i, s.cache.ip1, s.cache.ip2⟩

/-- The factors are those of the iteration matrices for the step `h` and the Jacobian `J`. -/
structure Factored (h : F) (J : Mat n F) (d : Facs F n) : Prop where
  fac1 : d.fac1 = U1 / h
  alphn : d.alphn = ALPHA / h
  betan : d.betan = BETA / h
  real : ∃ ip r, Linalg.dec n (extM fun i j => U1 / h * eye i j - J i j) ip = .ok (r, 0) ∧
    d.e1 = resM r.a ∧ d.ip1 = r.ip
  cplx : ∃ ip r, Linalg.decc n (extM fun i j => ALPHA / h * eye i j - J i j)
      (extM (n := n) fun i j => BETA / h * eye i j) ip = .ok (r, 0) ∧
    d.e2r = resM r.ar ∧ d.e2i = resM r.ai ∧ d.ip2 = r.ip

theorem perform_factored {s s' : St F n P} (h : perform_decompositions s = .ok (s', true)) :
    Factored s'.dt s'.cache.dfdu (facsOf s') ∧ s'.stats.decompositions = s.stats.decompositions + 1 ∧
      s'.cache.decompose = s.cache.decompose := by
  obtain ⟨-, s1, s2, h1, h2, rfl⟩ | ⟨h, -⟩ := perform_ok h
  · obtain ⟨r1, e1, rfl⟩ := decomp_real_ok h1
    obtain ⟨r2, e2, rfl⟩ := decomp_complex_ok h2
    exact ⟨⟨rfl, rfl, rfl, ⟨_, r1, e1, rfl, rfl⟩, ⟨_, r2, e2, rfl, rfl, rfl⟩⟩, rfl, rfl⟩
  · simp at h

theorem decFail_decs (s : St F n P) : (decFail s).stats.decompositions = s.stats.decompositions ∧
    (decFail s).cache.decompose = s.cache.decompose := by
  simp only [decFail, halveStep]
  split
  · exact ⟨rfl, rfl⟩
  · split <;> exact ⟨rfl, rfl⟩

theorem perform_fail_decs {s s' : St F n P} (h : perform_decompositions s = .ok (s', false)) :
    s'.stats.decompositions = s.stats.decompositions ∧ s'.cache.decompose = s.cache.decompose := by
  obtain ⟨h, -⟩ | ⟨-, s1, rfl, ⟨ier, h1⟩ | ⟨s0, ier, h1, h2⟩⟩ := perform_ok h
  · simp at h
  · obtain ⟨r1, e1, rfl⟩ := decomp_real_ok h1
    exact decFail_decs _
  · obtain ⟨r1, e1, rfl⟩ := decomp_real_ok h1
    obtain ⟨r2, e2, rfl⟩ := decomp_complex_ok h2
    exact decFail_decs _

theorem decLoop_factored {fuel : Nat} {s s' : St F n P} (h : decLoop fuel s = .ok (s', true)) :
    Factored s'.dt s'.cache.dfdu (facsOf s') ∧ s'.stats.decompositions = s.stats.decompositions + 1 ∧
      s'.cache.decompose = s.cache.decompose := by
  induction fuel generalizing s with
  | zero => simp [decLoop] at h
  | succ f ih =>
    rw [decLoop, Res.bind_eq_ok] at h
    obtain ⟨⟨s1, b1⟩, h1, h2⟩ := h
    dsimp only at h2
    cases b1 with
    | true =>
      rw [if_pos rfl] at h2
      obtain ⟨rfl, -⟩ := Prod.mk.inj (Res.ok.inj h2)
      exact perform_factored h1
    | false =>
      rw [if_neg (by simp)] at h2
      split at h2
      · simp at h2
      · have := ih h2
        have h3 := perform_fail_decs h1
        rw [h3.1, h3.2] at this
        exact this

/-- The decompositions of an attempt. -/
theorem decPhase_factored {fuel : Nat} {s s' : St F n P} (h : decPhase fuel s = .ok (s', true)) :
    (s.cache.decompose = true ∧ s'.cache.decompose = true ∧ Factored s'.dt s'.cache.dfdu (facsOf s') ∧
      s'.stats.decompositions = s.stats.decompositions + 1) ∨ (s.cache.decompose = false ∧ s' = s) := by
  unfold decPhase at h
  split at h
  · rename_i hd
    have := decLoop_factored h
    rw [hd] at this
    exact .inl ⟨hd, this.2.2, this.1, this.2.1⟩
  · rename_i hd
    obtain ⟨rfl, -⟩ := Prod.mk.inj (Res.ok.inj h)
    exact .inr ⟨Bool.eq_false_iff.2 hd, rfl⟩

theorem refresh_facs (s : St F n P) : facsOf (refreshJac s) = facsOf s := rfl

/-- The Newton iteration does not touch the factors. -/
theorem facs_closedN (d : Facs F n) (k : Nat) (b : Bool) : ClosedN (fun s : St F n P =>
    facsOf s = d ∧ s.stats.decompositions = k ∧ s.cache.decompose = b) where
  init {s} h := by
    simp only [newtonInit, prepare_newton]
    split <;> exact h
  rhs h := h
  solve h _ := h
  theta _ _ _ h := h
  slow {s} d h _ _ := by
    simp only [slowStep]
    split <;> exact h
  halve {s} h := by
    simp only [halveStep]
    split <;> exact h
  upd h := h

theorem decided_facs (s : St F n P) : facsOf (decided s) = facsOf s ∧
    (decided s).stats.decompositions = s.stats.decompositions ∧ (decided s).cache.decompose = true ∧
    (decided s).cache.z1 = s.cache.z1 ∧ (decided s).cache.z2 = s.cache.z2 ∧ (decided s).cache.z3 = s.cache.z3 := by
  unfold decided error_estimate
  dsimp only
  split
  · exact ⟨rfl, rfl, rfl, rfl, rfl, rfl⟩
  · split <;> exact ⟨rfl, rfl, rfl, rfl, rfl, rfl⟩

theorem rejectStep_facs (s : St F n P) (q : F) : facsOf (rejectStep s q) = facsOf s ∧
    (rejectStep s q).stats.decompositions = s.stats.decompositions ∧
    (rejectStep s q).cache.decompose = s.cache.decompose := by
  simp only [rejectStep]
  split <;> split <;> exact ⟨rfl, rfl, rfl⟩

theorem acceptStep_facs (s : St F n P) (q : F) : facsOf (acceptStep s q) = facsOf s := by
  have h1 : facsOf (acceptState (countAccept s)) = facsOf s := by
    simp only [acceptState]; split <;> rfl
  have h2 : ∀ s : St F n P, facsOf (finishNext s) = facsOf s := by
    intro s; simp only [finishNext]; split <;> rfl
  have h3 : ∀ (s : St F n P) d, facsOf (nextStep s d) = facsOf s := by
    intro s d; simp only [nextStep]; split
    · rw [h2]; rfl
    · split
      · rfl
      · rw [h2]; rfl
  simp only [acceptStep]
  split
  · exact h1
  · rw [h3]; exact h1

/-- The final, accepted attempt of a step: from the head of the loop to the decision. -/
structure Done (a s1 s2 s' : St F n P) : Prop where
  dec : ∃ fuel, decPhase fuel a = .ok (s1, true)
  small : tooSmall s1 = false
  newton : newton (tick s1) = .ok (s2, true)
  err : Fl.lt (decided s2).cache.err 1.0 = true
  eq : s' = acceptStep (decided s2) (stepQuot (decided s2))

theorem step_done {fuel : Nat} {s s' : St F n P} (hr : Ready s) (h : step fuel s = .ok s') :
    (∃ k a s1 s2, Atts k (clampLast s) a ∧ AttsSpec k (clampLast s) a ∧ Done a s1 s2 s') ∨
    (s'.sol.retcode ≠ .Continue ∧ s'.sol.retcode ≠ .Success ∧ s'.sol.ts = s.sol.ts ∧ s'.sol.us = s.sol.us) := by
  obtain ⟨k, a, -, ha, hf⟩ := step_ok h
  have sp := ha.spec (L_clampLast hr.reject)
  cases hf with
  | @done s1 s2 fuel h1 h2 h3 h4 h5 =>
    left
    rw [control_eq] at h5 ⊢
    split at h5
    · rename_i hlt
      exact ⟨k, a, s1, s2, ha, sp, ⟨fuel, h1⟩, h3, h4, hlt, by rw [if_pos hlt]⟩
    · rw [(rejectStep_fields _ _).2.2.1] at h5; simp at h5
  | singular h1 =>
    right
    have f := sp.frame.trans (Frame.decPhase h1)
    have r1 := decPhase_retcode h1
    simp at r1
    rw [sp.retcode, (clampLast_fields s).2.1, hr.retcode] at r1
    exact ⟨r1.1, by obtain r | r := r1.2 <;> simp [r], ((Frame.clampLast s).trans f).ts, ((Frame.clampLast s).trans f).us⟩
  | maxIters h1 _ =>
    right
    have f := ((Frame.clampLast s).trans (sp.frame.trans (Frame.decPhase h1)))
    exact ⟨by simp [setCode], by simp [setCode], f.ts, f.us⟩
  | small h1 _ _ =>
    right
    have f := ((Frame.clampLast s).trans (sp.frame.trans (Frame.decPhase h1)))
    exact ⟨by simp [setCode], by simp [setCode], f.ts, f.us⟩

/-- At the head of the loop, relative to the beginning of the step: without a pending decomposition the factors
are the old ones. -/
structure Head (s0 s : St F n P) : Prop where
  le : s0.stats.decompositions ≤ s.stats.decompositions
  old : s.cache.decompose = false → facsOf s = facsOf s0 ∧ s.stats.decompositions = s0.stats.decompositions ∧
    s0.cache.decompose = false

theorem Head.att {s0 s s' : St F n P} (H : Head s0 s) (hL : L s) (h : Att s s') : Head s0 s' := by
  have key : ∀ {s1 s2 : St F n P} {fuel : Nat} {b : Bool}, decPhase fuel s = .ok (s1, true) →
      newton (tick s1) = .ok (s2, b) → Head s0 s2 := by
    intro s1 s2 fuel b h1 h2
    have hk := (facs_closedN _ _ _).newton (s := tick s1) ⟨rfl, rfl, rfl⟩ h2
    obtain ⟨d1, d2, -, d4⟩ | ⟨d1, rfl⟩ := decPhase_factored h1
    · refine ⟨?_, fun hd => ?_⟩
      · rw [hk.2.1]; change _ ≤ s1.stats.decompositions; rw [d4]; have := H.le; omega
      · rw [hk.2.2] at hd; change s1.cache.decompose = false at hd; rw [d2] at hd; simp at hd
    · obtain ⟨o1, o2, o3⟩ := H.old d1
      exact ⟨by rw [hk.2.1]; exact H.le, fun _ => ⟨hk.1.trans o1, hk.2.1.trans o2, o3⟩⟩
  cases h with
  | diverged h1 _ _ h2 => exact key h1 h2
  | @again s1 s2 fuel h1 _ _ h2 h5 =>
    have hk := key h1 h2
    have hL1 := L.closed.decPhase hL h1
    have hL2 := L.closed.decided (L.closed.newton (show L (tick _) from hL1) h2)
    rw [control_eq] at h5 ⊢
    split at h5
    · rw [acceptStep_reject_of_L _ hL2] at h5; simp at h5
    · rename_i hlt
      rw [if_neg hlt]
      have r := rejectStep_facs (decided s2) (stepQuot (decided s2))
      have d := decided_facs s2
      refine ⟨by rw [r.2.1, d.2.1]; exact hk.le, fun hd => ?_⟩
      rw [r.2.2, d.2.2.1] at hd
      simp at hd

theorem Head.atts {k : Nat} {s0 s s' : St F n P} (H : Head s0 s) (hL : L s) (h : Atts k s s') : Head s0 s' := by
  induction h with
  | zero => exact H
  | succ h1 _ ih => exact ih (H.att hL h1) (h1.spec hL).L

theorem Head.start (s : St F n P) : Head s (clampLast s) := by
  unfold clampLast
  split <;> exact ⟨Nat.le_refl _, fun h => ⟨rfl, rfl, h⟩⟩

/-- Which factors an accepted step used. -/
theorem Done.facs {s a s1 s2 s' : St F n P} (H : Head s a) (D : Done a s1 s2 s') :
    facsOf s' = facsOf s1 ∧ facsOf s2 = facsOf s1 ∧ s'.dtprev = s1.dt ∧
    ((s.stats.decompositions < s'.stats.decompositions ∧ Factored s1.dt s1.cache.dfdu (facsOf s1)) ∨
     (s'.stats.decompositions = s.stats.decompositions ∧ s.cache.decompose = false ∧ facsOf s1 = facsOf s)) := by
  obtain ⟨fuel, h1⟩ := D.dec
  have hk := (facs_closedN _ _ _).newton (s := tick s1) ⟨rfl, rfl, rfl⟩ D.newton
  have d := decided_facs s2
  have e := acceptStep_facs (decided s2) (stepQuot (decided s2))
  have f := acceptStep_fields (decided s2) (stepQuot (decided s2))
  dsimp only at f
  rw [← D.eq] at e f
  obtain ⟨-, -, -, -, -, -, -, -, f9, -, -, -, -, -, -, -, -, -, -, f20, -⟩ := f
  have hdt : s2.dt = s1.dt := by
    have := newton_flags D.newton
    simp at this
    exact this.2.2
  refine ⟨by rw [e, d.1, hk.1]; rfl, hk.1, by rw [f9, decided_dt, hdt], ?_⟩
  have hdec : s'.stats.decompositions = s1.stats.decompositions := by
    rw [f20, d.2.1, hk.2.1]; rfl
  obtain ⟨d1, d2, d3, d4⟩ | ⟨d1, rfl⟩ := decPhase_factored h1
  · left
    have := H.le
    exact ⟨by omega, d3⟩
  · right
    obtain ⟨o1, o2, o3⟩ := H.old d1
    exact ⟨by omega, o3, o1⟩

/-! ### The last pass of a Newton iteration -/

/-- The state before the convergence test of a Newton pass. -/
def solved (s : St F n P) : St F n P := newtonSolve (newtonRhs s)

/-- The iterate agrees with the transformed one: at the beginning all are zero or the transformed one is computed from
the iterate, later it is the other way round. -/
def Linked (s : St F n P) : Prop :=
  (s.cache.z1 = (fun _ => 0.0) ∧ s.cache.z2 = (fun _ => 0.0) ∧ s.cache.z3 = (fun _ => 0.0) ∧
   s.cache.f1 = (fun _ => 0.0) ∧ s.cache.f2 = (fun _ => 0.0) ∧ s.cache.f3 = fun _ => 0.0) ∨
  ((s.cache.f1 = fun i => TI11 * s.cache.z1 i + TI12 * s.cache.z2 i + TI13 * s.cache.z3 i) ∧
   (s.cache.f2 = fun i => TI21 * s.cache.z1 i + TI22 * s.cache.z2 i + TI23 * s.cache.z3 i) ∧
   (s.cache.f3 = fun i => TI31 * s.cache.z1 i + TI32 * s.cache.z2 i + TI33 * s.cache.z3 i)) ∨
  ((s.cache.z1 = fun i => T11 * s.cache.f1 i + T12 * s.cache.f2 i + T13 * s.cache.f3 i) ∧
   (s.cache.z2 = fun i => T21 * s.cache.f1 i + T22 * s.cache.f2 i + T23 * s.cache.f3 i) ∧
   (s.cache.z3 = fun i => T31 * s.cache.f1 i + s.cache.f2 i))

/-- A converged Newton iteration ends with a pass which is not abandoned and whose increment passes the test. -/
theorem newtonLoop_last_with {fuel : Nat} {s s' : St F n P} {d : F} {I K : St F n P → Prop} (hI : ClosedN I)
    (hK : ∀ {s : St F n P} {dyn : F}, I s → Linked s → K s →
      (newtonCheck (solved s) (newtonNorm (solved s)) dyn).2 = false →
      K (newtonUpdate (newtonCheck (solved s) (newtonNorm (solved s)) dyn).1)) (hs : I s)
    (hl : Linked s) (hk : K s) (h : newtonLoop fuel s d = .ok (s', true)) :
    ∃ sp dyn, I sp ∧ Linked sp ∧ K sp ∧ sp.cache.newt < sp.opts.max_newt_iter ∧
      (newtonCheck (solved sp) (newtonNorm (solved sp)) dyn).2 = false ∧
      s' = newtonUpdate (newtonCheck (solved sp) (newtonNorm (solved sp)) dyn).1 ∧
      Fl.le (s'.cache.faccon * newtonNorm (solved sp)) s'.opts.fnewt = true := by
  induction fuel generalizing s d with
  | zero => simp [newtonLoop] at h
  | succ f ih =>
    simp only [newtonLoop] at h
    split at h
    · simp at h
    · rename_i hn
      split at h
      · simp at h
      · rename_i hb
        split at h
        · rename_i hle
          obtain ⟨rfl, -⟩ := Prod.mk.inj (Res.ok.inj h)
          exact ⟨s, d, hs, hl, hk, by omega, Bool.eq_false_iff.2 hb, rfl, hle⟩
        · exact ih (hI.upd (hI.newtonCheck _ _ (hI.solve (hI.rhs hs)
            (show s.cache.newt < s.opts.max_newt_iter by omega)))) (.inr (.inr ⟨rfl, rfl, rfl⟩))
            (hK hs hl hk (Bool.eq_false_iff.2 hb)) h

/-- The beginning of the iteration. -/
def Started (s : St F n P) : Prop :=
  (s.cache.z1 = (fun _ => 0.0) ∧ s.cache.z2 = (fun _ => 0.0) ∧ s.cache.z3 = (fun _ => 0.0) ∧
   s.cache.f1 = (fun _ => 0.0) ∧ s.cache.f2 = (fun _ => 0.0) ∧ s.cache.f3 = fun _ => 0.0) ∨
  ((s.cache.f1 = fun i => TI11 * s.cache.z1 i + TI12 * s.cache.z2 i + TI13 * s.cache.z3 i) ∧
   (s.cache.f2 = fun i => TI21 * s.cache.z1 i + TI22 * s.cache.z2 i + TI23 * s.cache.z3 i) ∧
   (s.cache.f3 = fun i => TI31 * s.cache.z1 i + TI32 * s.cache.z2 i + TI33 * s.cache.z3 i))

theorem newtonInit_started (s : St F n P) : Started (newtonInit s) := by
  simp only [newtonInit, prepare_newton]
  split
  · exact .inl ⟨rfl, rfl, rfl, rfl, rfl, rfl⟩
  · exact .inr ⟨rfl, rfl, rfl⟩

theorem newton_last_with {s s' : St F n P} {I K : St F n P → Prop} (hI : ClosedN I)
    (hK : ∀ {s : St F n P} {dyn : F}, I s → Linked s → K s →
      (newtonCheck (solved s) (newtonNorm (solved s)) dyn).2 = false →
      K (newtonUpdate (newtonCheck (solved s) (newtonNorm (solved s)) dyn).1)) (hs : I s)
    (hk : I (newtonInit s) → Started (newtonInit s) → K (newtonInit s)) (h : newton s = .ok (s', true)) :
    ∃ sp dyn, I sp ∧ Linked sp ∧ K sp ∧ sp.cache.newt < sp.opts.max_newt_iter ∧
      (newtonCheck (solved sp) (newtonNorm (solved sp)) dyn).2 = false ∧
      s' = newtonUpdate (newtonCheck (solved sp) (newtonNorm (solved sp)) dyn).1 ∧
      Fl.le (s'.cache.faccon * newtonNorm (solved sp)) s'.opts.fnewt = true := by
  rw [newton_eq] at h
  have hst := newtonInit_started s
  exact newtonLoop_last_with hI hK (hI.init hs) (hst.imp id .inl) (hk (hI.init hs) hst) h

theorem newton_last {s s' : St F n P} {I : St F n P → Prop} (hI : ClosedN I) (hs : I s)
    (h : newton s = .ok (s', true)) :
    ∃ sp dyn, I sp ∧ Linked sp ∧ sp.cache.newt < sp.opts.max_newt_iter ∧
      (newtonCheck (solved sp) (newtonNorm (solved sp)) dyn).2 = false ∧
      s' = newtonUpdate (newtonCheck (solved sp) (newtonNorm (solved sp)) dyn).1 ∧
      Fl.le (s'.cache.faccon * newtonNorm (solved sp)) s'.opts.fnewt = true := by
  obtain ⟨sp, dyn, h1, h2, -, h3⟩ := newton_last_with (K := fun _ => True) hI (fun _ _ _ _ => trivial) hs
    (fun _ _ => trivial) h
  exact ⟨sp, dyn, h1, h2, h3⟩

/-- The convergence test does not change the vectors. -/
theorem newtonCheck_vec (s : St F n P) (a b : F) (h : (newtonCheck s a b).2 = false) :
    let s' := (newtonCheck s a b).1
    s'.cache.z1 = s.cache.z1 ∧ s'.cache.z2 = s.cache.z2 ∧ s'.cache.z3 = s.cache.z3 ∧
    s'.cache.f1 = s.cache.f1 ∧ s'.cache.f2 = s.cache.f2 ∧ s'.cache.f3 = s.cache.f3 := by
  simp only [newtonCheck] at h ⊢
  split
  · rename_i h1
    rw [if_pos h1] at h
    split
    · rename_i h2
      rw [if_pos h2] at h
      split
      · rename_i h3
        rw [if_pos h3] at h
        simp at h
      · exact ⟨rfl, rfl, rfl, rfl, rfl, rfl⟩
    · rename_i h2
      rw [if_neg h2] at h
      simp at h
  · exact ⟨rfl, rfl, rfl, rfl, rfl, rfl⟩

end Radau
end Cyphus
