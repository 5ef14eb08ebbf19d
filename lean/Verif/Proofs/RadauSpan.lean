import Verif.Proofs.RadauX
/-!
# The times at which `Radau5` calls user code
-/

namespace Cyphus
open X
set_option autoImplicit false
set_option linter.unusedSectionVars false

/-- The time argument of a call. -/
def Call.time {F : Type} {n : ℕ} : Call F n → F
  | .rhs t _ => t
  | .jacU t _ => t
  | .jacT t _ => t

namespace Radau

section
variable {F : Type} {n : Nat} {P : Type}
  [Add F] [Sub F] [Mul F] [Div F] [Neg F] [OfScientific F] [Fl F]
variable {I : St F n P → Prop} (hI : Closed I) (htick : ∀ {s}, I s → I (tick s))
  (hrej : ∀ {s}, I s → Fl.lt s.cache.err 1.0 = false → I (rejectStep s (stepQuot s)))
include hI htick hrej

/-- How a step ends, with an invariant of its attempts. -/
theorem step_inv {fuel : Nat} {s s' : St F n P} (hr : s.cache.reject = false) (hs : I (clampLast s))
    (h : step fuel s = .ok s') :
    (∃ d, I d ∧ Fl.lt d.cache.err 1.0 = true ∧ s' = acceptStep d (stepQuot d)) ∨ ∃ d c, I d ∧ s' = setCode c d := by
  obtain ⟨k, s1, -, ha, hf⟩ := step_ok h
  have h1 := hI.attsL htick hrej (L_clampLast hr) hs ha
  have sp := ha.spec (L_clampLast hr)
  cases hf with
  | singular h2 => exact .inr ⟨s', s'.sol.retcode, hI.decPhase h1 h2, rfl⟩
  | maxIters h2 _ => exact .inr ⟨_, .MaxIters, htick (hI.decPhase h1 h2), rfl⟩
  | small h2 _ _ => exact .inr ⟨_, .DtLessThanMin, htick (hI.decPhase h1 h2), rfl⟩
  | @done s2 s3 fuel h2 h3 h4 h5 h6 =>
    have hI2 : I (Radau.decided s3) := hI.decided (hI.newton (htick (hI.decPhase h1 h2)) h5)
    rw [control_eq] at h6 ⊢
    split at h6
    · rename_i hlt
      rw [if_pos hlt]
      exact .inl ⟨_, hI2, hlt, rfl⟩
    · rw [(rejectStep_fields _ _).2.2.1] at h6; simp at h6

end

theorem jacLoop_time {F : Type} {n : Nat} {P : Type}
    [Add F] [Sub F] [Mul F] [Div F] [Neg F] [OfScientific F] [Fl F]
    (f : Rhs F n P) (t : F) (p : P) (du0 : Vec n F) (is : List (_root_.Fin n)) (l : JacLoop F n)
    (hl : ∀ c ∈ l.calls, c.time = t) : ∀ c ∈ (is.foldl (jacStep f t p du0) l).calls, c.time = t := by
  induction is generalizing l with
  | nil => exact hl
  | cons i is ih =>
    rw [List.foldl_cons]
    apply ih
    intro c hc
    simp only [jacStep, List.mem_append, List.mem_singleton] at hc
    rcases hc with hc | rfl
    · exact hl c hc
    · rfl

theorem jacobian_u_time {F : Type} {n : Nat} {P : Type}
    [Add F] [Sub F] [Mul F] [Div F] [Neg F] [OfScientific F] [Fl F]
    (f : Rhs F n P) (j : Option (JacFn F n P)) (m : Mat n F) (u : Vec n F) (t : F) (p : P) :
    ∀ c ∈ (jacobian_u f j m u t p).2, c.time = t := by
  cases j with
  | some j => intro c hc; simp [jacobian_u] at hc; subst hc; rfl
  | none => exact jacLoop_time _ _ _ _ _ _ (by simp [Call.time])

noncomputable section
variable {n : ℕ} {P : Type} {C : Clock} {t : ℝ} {s : St X n P}

/-- All calls made so far were at times in the span. -/
def InSpan (C : Clock) (s : St X n P) : Prop := ∀ c ∈ s.trace, ∃ x, c.time = fin x ∧ C.t0 ≤ x ∧ x ≤ C.tf

theorem InSpan.refresh (H : InSpan C s) (ht : s.t = fin t) (h0 : C.t0 ≤ t) (h1 : t ≤ C.tf) : InSpan C (refreshJac s) := by
  intro c hc
  rcases List.mem_append.1 (show c ∈ s.trace ++ _ from hc) with hc | hc
  · exact H c hc
  · exact ⟨t, by rw [jacobian_u_time _ _ _ _ _ _ c hc, ht], h0, h1⟩

theorem InSpan.closed : Closed (fun s : St X n P => (∃ h, Clk C True s t h) ∧ C.t0 ≤ t ∧ InSpan C s) := by
  have K := Clk.closed (n := n) (P := P) (C := C) (fwd := True) (t := t)
  have le : ∀ {s : St X n P}, (∃ h, Clk C True s t h) → s.t = fin t ∧ t ≤ C.tf := by
    rintro s ⟨h, H⟩
    have := H.pos trivial
    have := H.room trivial
    exact ⟨H.time, by linarith⟩
  refine .ofOps ?_ ?_ ?_ ?_ ?_ ?_ ?_ ?_ ?_ ?_ ?_ ?_ ?_ ?_ ?_
  · exact fun ⟨h1, h2, h3⟩ => ⟨K.facs h1, h2, h3⟩
  · intro s s' ier ⟨h1, h2, h3⟩ e
    refine ⟨K.real h1 e, h2, ?_⟩
    obtain ⟨r, -, rfl⟩ := decomp_real_ok e
    exact h3
  · intro s s' ier ⟨h1, h2, h3⟩ e
    refine ⟨K.cplx h1 e, h2, ?_⟩
    obtain ⟨r, -, rfl⟩ := decomp_complex_ok e
    exact h3
  · exact fun ⟨h1, h2, h3⟩ => ⟨K.count h1, h2, h3⟩
  · intro s ⟨h1, h2, h3⟩
    refine ⟨K.fail h1, h2, ?_⟩
    obtain ⟨e1, e2⟩ := le h1
    simp only [decFail, halveStep]
    split
    · exact h3
    · split
      · exact InSpan.refresh (show InSpan C _ from h3) e1 h2 e2
      · exact h3
  · intro s ⟨h1, h2, h3⟩
    refine ⟨K.init h1, h2, ?_⟩
    simp only [newtonInit, prepare_newton]
    split <;> exact h3
  · intro s ⟨⟨h, H⟩, h2, h3⟩
    refine ⟨K.rhs ⟨h, H⟩, h2, ?_⟩
    have p := H.pos trivial
    have r := H.room trivial
    intro c hc
    rcases List.mem_append.1 (show c ∈ s.trace ++ [_, _, _] from hc) with hc | hc
    · exact h3 c hc
    · simp only [List.mem_cons, List.not_mem_nil, or_false] at hc
      rcases hc with rfl | rfl | rfl
      · refine ⟨t + 0.1550510257216822 * h, ?_, ?_, ?_⟩
        · simp only [Call.time, H.time, H.step]
          exact (congrArg (fin t + ·) (mul_fin _ _)).trans (add_fin _ _)
        · norm_num; linarith
        · norm_num; linarith
      · refine ⟨t + 0.6449489742783178 * h, ?_, ?_, ?_⟩
        · simp only [Call.time, H.time, H.step]
          exact (congrArg (fin t + ·) (mul_fin _ _)).trans (add_fin _ _)
        · norm_num; linarith
        · norm_num; linarith
      · refine ⟨t + h, ?_, by linarith, r⟩
        simp only [Call.time, H.time, H.step]
        exact add_fin _ _
  · exact fun ⟨h1, h2, h3⟩ hn => ⟨K.solve h1 hn, h2, h3⟩
  · exact fun a b c ⟨h1, h2, h3⟩ => ⟨K.theta a b c h1, h2, h3⟩
  · intro s d ⟨h1, h2, h3⟩ hn hd
    refine ⟨K.slow d h1 hn hd, h2, ?_⟩
    obtain ⟨e1, e2⟩ := le h1
    simp only [slowStep]
    split
    · exact InSpan.refresh (show InSpan C _ from h3) e1 h2 e2
    · exact h3
  · intro s ⟨h1, h2, h3⟩
    refine ⟨K.halve h1, h2, ?_⟩
    obtain ⟨e1, e2⟩ := le h1
    simp only [halveStep]
    split
    · exact InSpan.refresh (show InSpan C _ from h3) e1 h2 e2
    · exact h3
  · exact fun ⟨h1, h2, h3⟩ => ⟨K.upd h1, h2, h3⟩
  · exact fun ⟨h1, h2, h3⟩ => ⟨K.err1 h1, h2, h3⟩
  · intro s ⟨h1, h2, h3⟩
    refine ⟨K.err2 h1, h2, ?_⟩
    obtain ⟨e1, e2⟩ := le h1
    intro c hc
    rcases List.mem_append.1 (show c ∈ s.trace ++ [_] from hc) with hc | hc
    · exact h3 c hc
    · simp only [List.mem_singleton] at hc
      subst hc
      exact ⟨t, e1, h2, e2⟩
  · exact fun ⟨h1, h2, h3⟩ => ⟨K.decomp h1, h2, h3⟩

theorem InSpan.reject (H : (∃ h, Clk C True s t h) ∧ C.t0 ≤ t ∧ InSpan C s) (he : Fl.lt s.cache.err 1.0 = false) :
    (∃ h, Clk C True (rejectStep s (stepQuot s)) t h) ∧ C.t0 ≤ t ∧ InSpan C (rejectStep s (stepQuot s)) := by
  obtain ⟨⟨h, H⟩, h2, h3⟩ := H
  have e2 : t ≤ C.tf := by linarith [H.pos trivial, H.room trivial]
  refine ⟨H.reject he, h2, ?_⟩
  have e1 := H.time
  simp only [rejectStep]
  split <;> split
  · exact InSpan.refresh (show InSpan C _ from h3) e1 h2 e2
  · exact h3
  · exact InSpan.refresh (show InSpan C _ from h3) e1 h2 e2
  · exact h3

theorem InSpan.finishNext (H : InSpan C s) (ht : s.t = fin t) (h0 : C.t0 ≤ t) (h1 : t ≤ C.tf) :
    InSpan C (finishNext s) := by
  simp only [Radau.finishNext]
  split
  · exact InSpan.refresh (show InSpan C _ from H) ht h0 h1
  · exact H

theorem InSpan.accept (H : InSpan C s) {t' : ℝ} (q : X) (ht : (acceptStep s q).t = fin t') (h0 : C.t0 ≤ t')
    (h1 : t' ≤ C.tf) : InSpan C (acceptStep s q) := by
  have e := (acceptStep_fields s q).2.2.2.2.2.1
  rw [e] at ht
  have a2 : InSpan C (acceptState (countAccept s)) := by
    simp only [acceptState]
    split <;> exact H
  have a3 : (acceptState (countAccept s)).t = fin t' := by
    rw [← ht]
    simp only [acceptState]
    split <;> rfl
  simp only [acceptStep]
  split
  · exact a2
  · have h2 : InSpan C (newDeriv (acceptState (countAccept s))) ∧
        (newDeriv (acceptState (countAccept s))).t = fin t' := by
      refine ⟨?_, a3⟩
      intro c hc
      rcases List.mem_append.1 (show c ∈ (acceptState (countAccept s)).trace ++ [_] from hc) with hc | hc
      · exact a2 c hc
      · simp only [List.mem_singleton] at hc
        subst hc
        exact ⟨t', a3, h0, h1⟩
    generalize newDeriv (acceptState (countAccept s)) = a at h2
    obtain ⟨h2, h3⟩ := h2
    simp only [nextStep]
    split
    · exact InSpan.finishNext (show InSpan C _ from h2) h3 h0 h1
    · split
      · exact h2
      · exact InSpan.finishNext (show InSpan C _ from h2) h3 h0 h1

/-- One step. -/
theorem InSpan.step {h : ℝ} (H : Idle C True s t h) (hr : Ready s) (h0 : C.t0 ≤ t) (hs : InSpan C s) {fuel : ℕ}
    {s' : St X n P} (h1 : Radau.step fuel s = .ok s') : InSpan C s' := by
  have hcl : InSpan C (clampLast s) := by
    unfold clampLast; split <;> exact hs
  obtain ⟨d, ⟨⟨g, G⟩, -, hd⟩, he, rfl⟩ | ⟨d, c, ⟨-, -, hd⟩, rfl⟩ := step_inv InSpan.closed
    (fun ⟨h1, h2, h3⟩ => ⟨Clk.tick h1, h2, h3⟩) (fun H he => InSpan.reject H he) hr.reject
    ⟨H.clamp hr.retcode, h0, hcl⟩ h1
  · have p := G.pos trivial
    refine hd.accept (t' := t + g) _ ?_ (by linarith) (G.room trivial)
    rw [(acceptStep_fields d (stepQuot d)).2.2.2.2.2.1, G.time, G.step, add_fin]
  · exact hd

theorem Idle.fwd {fwd : Prop} {h : ℝ} (H : Idle C fwd s t h) (hf : fwd) : Idle C True s t h :=
  ⟨H.1, H.2, H.3, H.4, H.5, H.6.imp fun _ h => ⟨h.1, fun _ => h.2 hf⟩, H.7, H.8, fun _ => H.9 hf, fun _ => H.10 hf,
    fun _ => H.11 hf, fun _ => H.12 hf⟩

end
end Radau
end Cyphus
