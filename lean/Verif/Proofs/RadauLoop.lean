import Verif.Proofs.Radau
/-!
# The loop of a `Radau5` step (any arithmetic)

A call of `step` is: `clampLast`, a number of failed attempts (`Att`), a final attempt (`Fin`).
-/

namespace Cyphus
namespace Radau
set_option linter.unusedSectionVars false
variable {F : Type} {n : Nat} {P : Type}
  [Add F] [Sub F] [Mul F] [Div F] [Neg F] [OfScientific F] [Fl F]

/-- Counting an attempt. -/
def tick (s : St F n P) : St F n P := { s with stats := { s.stats with steps := s.stats.steps + 1 } }

/-- The too-small-step test. -/
def tooSmall (s : St F n P) : Bool := Fl.le (0.1 * Fl.abs s.dt) (Fl.abs s.t * Fl.eps)

def setCode (c : RetCode) (s : St F n P) : St F n P := { s with sol := { s.sol with retcode := c } }

/-- One attempt after which the loop goes on: from the head of the loop to the head of the loop. -/
inductive Att : St F n P → St F n P → Prop
  | diverged {s s1 s2 fuel} : decPhase fuel s = .ok (s1, true) →
      s1.stats.steps + 1 < s1.opts.max_steps → tooSmall s1 = false →
      newton (tick s1) = .ok (s2, false) → Att s s2
  | again {s s1 s2 fuel} : decPhase fuel s = .ok (s1, true) →
      s1.stats.steps + 1 < s1.opts.max_steps → tooSmall s1 = false →
      newton (tick s1) = .ok (s2, true) → (control s2).cache.reject = true → Att s (control s2)

/-- The attempt that ends the loop. -/
inductive Fin : St F n P → St F n P → Prop
  | singular {s s1 fuel} : decPhase fuel s = .ok (s1, false) → Fin s s1
  | maxIters {s s1 fuel} : decPhase fuel s = .ok (s1, true) →
      s1.opts.max_steps ≤ s1.stats.steps + 1 → Fin s (setCode .MaxIters (tick s1))
  | small {s s1 fuel} : decPhase fuel s = .ok (s1, true) →
      s1.stats.steps + 1 < s1.opts.max_steps → tooSmall s1 = true →
      Fin s (setCode .DtLessThanMin (tick s1))
  | done {s s1 s2 fuel} : decPhase fuel s = .ok (s1, true) →
      s1.stats.steps + 1 < s1.opts.max_steps → tooSmall s1 = false →
      newton (tick s1) = .ok (s2, true) → (control s2).cache.reject = false → Fin s (control s2)

inductive Atts : Nat → St F n P → St F n P → Prop
  | zero (s) : Atts 0 s s
  | succ {k s s' s''} : Att s s' → Atts k s' s'' → Atts (k + 1) s s''

theorem stepLoop_ok {fuel : Nat} {s s' : St F n P} (h : stepLoop fuel s = .ok s') :
    ∃ k s1, k < fuel ∧ Atts k s s1 ∧ Fin s1 s' := by
  induction fuel generalizing s with
  | zero => simp [stepLoop] at h
  | succ f ih =>
    rw [stepLoop, Res.bind_eq_ok] at h
    obtain ⟨⟨s1, go⟩, h1, h2⟩ := h
    cases go with
    | false =>
      simp only [Bool.not_false, if_true, Res.ok.injEq] at h2
      subst h2
      exact ⟨0, s, by omega, .zero s, .singular h1⟩
    | true =>
      simp only [Bool.not_true, Bool.false_eq_true, if_false] at h2
      split at h2
      · rename_i hm
        simp only [Res.ok.injEq] at h2
        subst h2
        exact ⟨0, s, by omega, .zero s, .maxIters h1 hm⟩
      · rename_i hm
        split at h2
        · rename_i hd
          simp only [Res.ok.injEq] at h2
          subst h2
          exact ⟨0, s, by omega, .zero s, .small h1 (by simpa using hm) hd⟩
        · rename_i hd
          rw [Res.bind_eq_ok] at h2
          obtain ⟨⟨s2, conv⟩, h3, h4⟩ := h2
          have hm' : s1.stats.steps + 1 < s1.opts.max_steps := by simpa using hm
          have hd' : tooSmall s1 = false := by simpa [tooSmall] using hd
          cases conv with
          | false =>
            simp only [Bool.not_false, if_true] at h4
            obtain ⟨k, s3, hk, ha, hf⟩ := ih h4
            exact ⟨k + 1, s3, by omega, .succ (.diverged h1 hm' hd' h3) ha, hf⟩
          | true =>
            simp only [Bool.not_true, Bool.false_eq_true, if_false] at h4
            split at h4
            · rename_i hr
              simp only [Res.ok.injEq] at h4
              subst h4
              exact ⟨0, s, by omega, .zero s, .done h1 hm' hd' h3 (by simpa using hr)⟩
            · rename_i hr
              obtain ⟨k, s3, hk, ha, hf⟩ := ih h4
              exact ⟨k + 1, s3, by omega, .succ (.again h1 hm' hd' h3 (by simpa using hr)) ha, hf⟩

theorem step_ok {fuel : Nat} {s s' : St F n P} (h : step fuel s = .ok s') :
    ∃ k s1, k < fuel ∧ Atts k (clampLast s) s1 ∧ Fin s1 s' := stepLoop_ok h

/-! ### Fuel -/

theorem stepLoop_mono {f g : Nat} {s s' : St F n P} (h : stepLoop f s = .ok s') (hfg : f ≤ g) :
    stepLoop g s = .ok s' := by
  induction f generalizing s g with
  | zero => simp [stepLoop] at h
  | succ f ih =>
    obtain ⟨g, rfl⟩ : ∃ k, g = k + 1 := ⟨g - 1, by omega⟩
    rw [stepLoop, Res.bind_eq_ok] at h ⊢
    obtain ⟨⟨s1, go⟩, h1, h2⟩ := h
    refine ⟨⟨s1, go⟩, decPhase_mono h1 (by omega), ?_⟩
    cases go with
    | false => simpa using h2
    | true =>
      simp only [Bool.not_true, Bool.false_eq_true, if_false] at h2 ⊢
      split at h2
      · rename_i hm; rw [if_pos hm]; exact h2
      · rename_i hm; rw [if_neg hm]
        split at h2
        · rename_i hd; rw [if_pos hd]; exact h2
        · rename_i hd; rw [if_neg hd]
          rw [Res.bind_eq_ok] at h2 ⊢
          obtain ⟨⟨s2, conv⟩, h3, h4⟩ := h2
          refine ⟨⟨s2, conv⟩, h3, ?_⟩
          cases conv with
          | false =>
            simp only [Bool.not_false, if_true] at h4 ⊢
            exact ih h4 (by omega)
          | true =>
            simp only [Bool.not_true, Bool.false_eq_true, if_false] at h4 ⊢
            split at h4
            · rename_i hr; rw [if_pos hr]; exact h4
            · rename_i hr; rw [if_neg hr]; exact ih h4 (by omega)

theorem step_fuel_mono {f g : Nat} {s s' : St F n P} (h : step f s = .ok s') (hfg : f ≤ g) :
    step g s = .ok s' := stepLoop_mono h hfg

/-! ### An invariance principle -/

/-- `I` is preserved by every elementary operation of the Newton iteration. -/
structure ClosedN (I : St F n P → Prop) : Prop where
  init : ∀ {s}, I s → I (newtonInit s)
  rhs : ∀ {s}, I s → I (newtonRhs s)
  solve : ∀ {s}, I s → s.cache.newt < s.opts.max_newt_iter → I (newtonSolve s)
  theta : ∀ {s} (a b c), I s →
    I { s with cache := { s.cache with theta := a, thqold := b, faccon := c } }
  slow : ∀ {s} (d), I s → s.cache.newt < s.opts.max_newt_iter → Fl.ge d 1.0 = true → I (slowStep s d)
  halve : ∀ {s}, I s → I (halveStep s)
  upd : ∀ {s}, I s → I (newtonUpdate s)

/-- `I` is preserved by every elementary operation of the decompositions. -/
structure ClosedD (I : St F n P → Prop) : Prop where
  facs : ∀ {s}, I s → I (setFacs s)
  real : ∀ {s s' ier}, I s → decomp_real s = .ok (s', ier) → I s'
  cplx : ∀ {s s' ier}, I s → decomp_complex s = .ok (s', ier) → I s'
  count : ∀ {s}, I s →
    I { s with stats := { s.stats with decompositions := s.stats.decompositions + 1 } }
  fail : ∀ {s}, I s → I (decFail s)

/-- `I` is preserved by every elementary operation of an attempt except the final acceptance. -/
structure Closed (I : St F n P → Prop) : Prop extends ClosedN I, ClosedD I where
  err1 : ∀ {s}, I s → I (errFirst s)
  err2 : ∀ {s}, I s → I (errSecond s)
  decomp : ∀ {s}, I s → I { s with cache := { s.cache with decompose := true } }

/-- The operations in the order of an attempt. -/
theorem Closed.ofOps {I : St F n P → Prop} (facs : ∀ {s}, I s → I (setFacs s))
    (real : ∀ {s s' ier}, I s → decomp_real s = .ok (s', ier) → I s')
    (cplx : ∀ {s s' ier}, I s → decomp_complex s = .ok (s', ier) → I s')
    (count : ∀ {s}, I s → I { s with stats := { s.stats with decompositions := s.stats.decompositions + 1 } })
    (fail : ∀ {s}, I s → I (decFail s)) (init : ∀ {s}, I s → I (newtonInit s))
    (rhs : ∀ {s}, I s → I (newtonRhs s)) (solve : ∀ {s}, I s → s.cache.newt < s.opts.max_newt_iter → I (newtonSolve s))
    (theta : ∀ {s} (a b c), I s → I { s with cache := { s.cache with theta := a, thqold := b, faccon := c } })
    (slow : ∀ {s} (d), I s → s.cache.newt < s.opts.max_newt_iter → Fl.ge d 1.0 = true → I (slowStep s d))
    (halve : ∀ {s}, I s → I (halveStep s)) (upd : ∀ {s}, I s → I (newtonUpdate s))
    (err1 : ∀ {s}, I s → I (errFirst s)) (err2 : ∀ {s}, I s → I (errSecond s))
    (decomp : ∀ {s}, I s → I { s with cache := { s.cache with decompose := true } }) : Closed I :=
  ⟨⟨init, rhs, solve, theta, slow, halve, upd⟩, ⟨facs, real, cplx, count, fail⟩, err1, err2, decomp⟩

section closedN
variable {I : St F n P → Prop} (hI : ClosedN I)
include hI

theorem ClosedN.newtonCheck {s : St F n P} (a b : F) (hs : I s) : I (newtonCheck s a b).1 := by
  simp only [Radau.newtonCheck]
  split
  · rename_i hn
    split
    · split
      · rename_i hd
        exact hI.slow _ (hI.theta _ _ _ hs) hn.2 hd
      · exact hI.theta _ _ _ hs
    · exact hI.halve (hI.theta _ _ s.cache.faccon hs)
  · exact hs

theorem ClosedN.newtonLoop {fuel : Nat} {s s' : St F n P} {d : F} {b : Bool} (hs : I s)
    (h : newtonLoop fuel s d = .ok (s', b)) : I s' := by
  induction fuel generalizing s d with
  | zero => simp [Radau.newtonLoop] at h
  | succ f ih =>
    simp only [Radau.newtonLoop] at h
    split at h
    · simp only [Res.ok.injEq, Prod.mk.injEq] at h
      exact h.1 ▸ hI.halve hs
    · rename_i hn
      have h1 := hI.newtonCheck (newtonNorm (newtonSolve (newtonRhs s))) d
        (hI.solve (hI.rhs hs) (show s.cache.newt < s.opts.max_newt_iter by omega))
      split at h
      · simp only [Res.ok.injEq, Prod.mk.injEq] at h
        exact h.1 ▸ h1
      · split at h
        · simp only [Res.ok.injEq, Prod.mk.injEq] at h
          exact h.1 ▸ hI.upd h1
        · exact ih (hI.upd h1) h

theorem ClosedN.newton {s s' : St F n P} {b : Bool} (hs : I s) (h : newton s = .ok (s', b)) : I s' := by
  rw [newton_eq] at h
  exact hI.newtonLoop (hI.init hs) h

end closedN

section closedD
variable {I : St F n P → Prop} (hI : ClosedD I)
include hI

theorem ClosedD.perform {s s' : St F n P} {b : Bool} (hs : I s)
    (h : perform_decompositions s = .ok (s', b)) : I s' := by
  obtain ⟨-, s1, s2, h1, h2, rfl⟩ | ⟨-, s1, rfl, ⟨ier, h1⟩ | ⟨s0, ier, h1, h2⟩⟩ := perform_ok h
  · exact hI.count (hI.cplx (hI.real (hI.facs hs) h1) h2)
  · exact hI.fail (hI.real (hI.facs hs) h1)
  · exact hI.fail (hI.cplx (hI.real (hI.facs hs) h1) h2)

theorem ClosedD.decLoop {fuel : Nat} {s s' : St F n P} {b : Bool} (hs : I s)
    (h : decLoop fuel s = .ok (s', b)) : I s' := by
  induction fuel generalizing s with
  | zero => simp [Radau.decLoop] at h
  | succ f ih =>
    rw [Radau.decLoop, Res.bind_eq_ok] at h
    obtain ⟨⟨s1, b1⟩, h1, h2⟩ := h
    simp only at h2
    split at h2
    · simp only [Res.ok.injEq, Prod.mk.injEq] at h2
      exact h2.1 ▸ hI.perform hs h1
    · split at h2
      · simp only [Res.ok.injEq, Prod.mk.injEq] at h2
        exact h2.1 ▸ hI.perform hs h1
      · exact ih (hI.perform hs h1) h2

theorem ClosedD.decPhase {fuel : Nat} {s s' : St F n P} {b : Bool} (hs : I s)
    (h : decPhase fuel s = .ok (s', b)) : I s' := by
  unfold Radau.decPhase at h
  split at h
  · exact hI.decLoop hs h
  · simp only [Res.ok.injEq, Prod.mk.injEq] at h
    exact h.1 ▸ hs

end closedD

section closed
variable {I : St F n P → Prop} (hI : Closed I)
include hI

theorem Closed.error_estimate {s : St F n P} (hs : I s) : I (error_estimate s) := by
  simp only [Radau.error_estimate]
  split
  · exact hI.err1 hs
  · split
    · exact hI.err2 (hI.err1 hs)
    · exact hI.err1 hs

end closed

/-- The state in which the step-size controller takes its decision. -/
def decided (s : St F n P) : St F n P :=
  let s := error_estimate s
  { s with cache := { s.cache with decompose := true } }

theorem control_eq (s : St F n P) : control s =
    if Fl.lt (decided s).cache.err 1.0 then acceptStep (decided s) (stepQuot (decided s))
    else rejectStep (decided s) (stepQuot (decided s)) := rfl

theorem Closed.decided {I : St F n P → Prop} (hI : Closed I) {s : St F n P} (hs : I s) :
    I (decided s) := hI.decomp (hI.error_estimate hs)

/-- An attempt that is not accepted. -/
theorem Closed.att {I : St F n P → Prop} (hI : Closed I)
    (htick : ∀ {s}, I s → I (tick s))
    (hrej : ∀ {s}, I s → Fl.lt s.cache.err 1.0 = false → I (rejectStep s (stepQuot s)))
    (hacc : ∀ {s}, I s → Fl.lt s.cache.err 1.0 = true → I (acceptStep s (stepQuot s)))
    {s s' : St F n P} (hs : I s) (h : Att s s') : I s' := by
  cases h with
  | diverged h1 _ _ h2 => exact hI.newton (htick (hI.decPhase hs h1)) h2
  | again h1 _ _ h2 _ =>
    have := hI.decided (hI.newton (htick (hI.decPhase hs h1)) h2)
    rw [control_eq]
    split
    · exact hacc this ‹_›
    · exact hrej this (Bool.eq_false_iff.2 ‹_›)

theorem Closed.fin {I : St F n P → Prop} (hI : Closed I)
    (htick : ∀ {s}, I s → I (tick s))
    (hrej : ∀ {s}, I s → Fl.lt s.cache.err 1.0 = false → I (rejectStep s (stepQuot s)))
    (hacc : ∀ {s}, I s → Fl.lt s.cache.err 1.0 = true → I (acceptStep s (stepQuot s)))
    (hcode : ∀ {s} (c), I s → I (setCode c s))
    {s s' : St F n P} (hs : I s) (h : Fin s s') : I s' := by
  cases h with
  | singular h1 => exact hI.decPhase hs h1
  | maxIters h1 => exact hcode _ (htick (hI.decPhase hs h1))
  | small h1 => exact hcode _ (htick (hI.decPhase hs h1))
  | done h1 _ _ h2 _ =>
    have := hI.decided (hI.newton (htick (hI.decPhase hs h1)) h2)
    rw [control_eq]
    split
    · exact hacc this ‹_›
    · exact hrej this (Bool.eq_false_iff.2 ‹_›)

/-- What holds before a step and is preserved by all elementary operations holds after it. -/
theorem Closed.step {I : St F n P → Prop} (hI : Closed I)
    (hclamp : ∀ {s}, I s → I (clampLast s))
    (htick : ∀ {s}, I s → I (tick s))
    (hrej : ∀ {s}, I s → Fl.lt s.cache.err 1.0 = false → I (rejectStep s (stepQuot s)))
    (hacc : ∀ {s}, I s → Fl.lt s.cache.err 1.0 = true → I (acceptStep s (stepQuot s)))
    (hcode : ∀ {s} (c), I s → I (setCode c s))
    {fuel : Nat} {s s' : St F n P} (hs : I s) (h : step fuel s = .ok s') : I s' := by
  obtain ⟨k, s1, -, ha, hf⟩ := step_ok h
  refine hI.fin htick hrej hacc hcode ?_ hf
  have h0 := hclamp hs
  clear hf
  generalize clampLast s = s0 at ha h0
  induction ha with
  | zero => exact h0
  | succ h1 _ ih => exact ih (hI.att htick hrej hacc h0 h1)

end Radau
end Cyphus
