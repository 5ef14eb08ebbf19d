import Verif.Proofs.RunInv
import Mathlib.Tactic.ByContra
/-!
# C62: the time at which a successful run ends, in any arithmetic

Level G: nothing is assumed about the arithmetic.
-/

namespace Cyphus
set_option linter.unusedSectionVars false
set_option autoImplicit false
variable {F : Type} {n : Nat} {P : Type}
  [Add F] [Sub F] [Mul F] [Div F] [Neg F] [OfScientific F] [Fl F] [FlInf F]

namespace DP5

/-- `last` is cleared during a run. -/
theorem some_last {s0 s : St F n P} {k : Nat} (h0 : s0.cache.last = false) (hs : SomeSteps DP5.alg none k s0 s) :
    s.cache.last = false ∧ s.tfinal = s0.tfinal ∧ s.sol.ts.getLast? = some s.t ∨ k = 0 ∧ s = s0 := by
  refine SomeSteps.induct (alg := DP5.alg) (I := fun k s => s.cache.last = false ∧ s.tfinal = s0.tfinal ∧
    s.sol.ts.getLast? = some s.t ∨ k = 0 ∧ s = s0) ?_ ?_ hs
  · exact .inr ⟨rfl, rfl⟩
  · rintro k s o s' h1 h2
    obtain ⟨⟨fuel, h2⟩, ho⟩ := stepReturns_none_iff.1 h2
    have hc : s'.sol.retcode = .Continue := by
      by_contra hc
      simp [hc] at ho
    obtain ⟨_, _, _, _, _, _, _, sp⟩ := DP5.step_spec h2
    obtain ⟨c, -, e⟩ := sp.code
    left
    refine ⟨?_, ?_, by rw [sp.ts]; simp⟩
    · by_contra hl
      rw [hc] at e
      simp [hl] at e
    · rw [sp.tfinal]
      obtain h1 | ⟨-, rfl⟩ := h1
      · exact h1.2.1
      · rfl

end DP5

/-- **C62** When `integrate()` returns with `Success`, the final time is `t + (tfinal - t)`, computed in this order in
the arithmetic of the program, where `t` is the time recorded before it. (With rounding this need not be `tfinal`
itself.) -/
theorem C62_final_time_dp5 {b : Builder F n P} {s0 s : DP5.St F n P} (hb : b.build DP5.alg = .ok s0)
    (hs : IntegrateReturns DP5.alg none s0 s) (hc : s.sol.retcode = .Success) :
    ∃ ts t, s.sol.ts = ts ++ [t, t + (b.tfinal - t)] ∧ s.t = t + (b.tfinal - t) := by
  obtain ⟨k, s1, h1, h2⟩ := (integrate_iff DP5.fuelMono).1 hs
  obtain ⟨⟨fuel, h2⟩, -⟩ := stepReturns_none_iff.1 h2
  have B := DP5.build_fields hb
  have hf : s0.tfinal = b.tfinal := by rw [← Res.ok.inj hb]
  have hl : s1.cache.last = false ∧ s1.tfinal = b.tfinal ∧ s1.sol.ts.getLast? = some s1.t := by
    obtain h | ⟨-, rfl⟩ := DP5.some_last B.2.2.2.2.2.2.1 h1
    · rw [← hf]; exact h
    · exact ⟨B.2.2.2.2.2.2.1, hf, by rw [B.1, B.2.2.2.2.2.2.2.1]; rfl⟩
  have hc1 : s1.sol.retcode = .Continue := SomeSteps.continue (alg := DP5.alg) h1 B.2.2.1
  obtain ⟨k, s2, -, hr, -, -, rfl, sp⟩ := DP5.step_spec h2
  have e := DP5.finishStep_retcode (DP5.accepted s2)
  rw [hc] at e
  have hl2 : s2.cache.last = true := by
    by_contra hl2
    simp only [DP5.accepted_last, hl2, if_false] at e
    split at e
    · simp at e
    · have := hr.spec.retcode
      rw [(DP5.clampLast_stats s1).2.1, hc1] at this
      rw [DP5.accepted_sol] at e
      rw [← e] at this
      simp at this
  rw [hr.last] at hl2
  have hk : k = 0 := by by_contra hk; simp [hk] at hl2
  subst hk
  cases hr
  simp only [if_true] at hl2
  have hd : (DP5.clampLast s1).dt = b.tfinal - s1.t := by
    unfold DP5.clampLast at hl2 ⊢
    split
    · rw [← hl.2.1]
    · rename_i h; rw [if_neg h, hl.1] at hl2; simp at hl2
  have ht : (DP5.finishStep (DP5.accepted (DP5.clampLast s1))).t = s1.t + (b.tfinal - s1.t) := by
    simp [hd, (DP5.Frame.clampLast s1).t]
  obtain ⟨ts, hts⟩ : ∃ ts, s1.sol.ts = ts ++ [s1.t] := by
    have := hl.2.2
    rw [List.getLast?_eq_some_iff] at this
    exact this
  exact ⟨ts, s1.t, by rw [sp.ts, ht, hts]; simp, ht⟩

namespace Radau

/-- While the current step is marked as the last, the step size is `tfinal - t`. -/
def Aim (s : St F n P) : Prop := s.cache.last = true → s.dt = s.tfinal - s.t

theorem Aim.of_last {s : St F n P} (h : s.cache.last = false) : Aim s := fun h' => by rw [h] at h'; cases h'

theorem Aim.closed : Closed (Aim : St F n P → Prop) where
  facs h := h
  real h e := by obtain ⟨r, -, rfl⟩ := decomp_real_ok e; exact h
  cplx h e := by obtain ⟨r, -, rfl⟩ := decomp_complex_ok e; exact h
  count h := h
  fail {s} h := by
    simp only [decFail, halveStep]
    split
    · exact h
    · split <;> exact .of_last rfl
  init {s} h := by
    simp only [newtonInit, prepare_newton]
    split <;> exact h
  rhs h := h
  solve h _ := h
  theta _ _ _ h := h
  slow {s} d h _ _ := .of_last (slowStep_flags s d).2
  halve {s} h := .of_last (halveStep_flags s).2
  upd h := h
  err1 h := h
  err2 h := h
  decomp h := h

theorem Aim.clampLast {s : St F n P} (h : Aim s) : Aim (clampLast s) := by
  unfold Radau.clampLast
  split
  · exact fun _ => rfl
  · exact h

theorem Aim.accept {s : St F n P} (q : F) (hc : (acceptStep s q).sol.retcode ≠ .Success) :
    Aim (acceptStep s q) := by
  have a := acceptState_fields (countAccept s)
  simp only at a
  have hl : s.cache.last = false := by
    by_contra hl
    have := acceptStep_fields s q
    simp only at this
    obtain ⟨-, -, -, -, -, -, -, -, -, -, -, -, -, -, h, -⟩ := this
    rw [h] at hc
    simp [hl] at hc
  have hl' : (acceptState (countAccept s)).cache.last = false := by
    rw [a.2.2.2.2.2.2.2.2.2.2.2.2.2.2.2.2.1]; exact hl
  simp only [acceptStep]
  rw [if_neg (by rw [hl']; simp)]
  generalize hd : newDeriv (acceptState (countAccept s)) = s1
  have hl1 : s1.cache.last = false := by rw [← hd]; exact hl'
  have hfin : ∀ x : St F n P, Aim x → Aim (finishNext x) := by
    intro x hx
    simp only [finishNext, refreshJac]
    split <;> exact hx
  simp only [nextStep]
  split
  · exact hfin _ fun _ => rfl
  · split
    · exact .of_last hl1
    · exact hfin _ (.of_last hl1)

/-- `Success` is only reported by a step of size `tfinal - t`. -/
theorem Aim.step {fuel : Nat} {s s' : St F n P} (hr : Ready s) (hA : Aim s) (h : step fuel s = .ok s') :
    (s'.sol.retcode = .Success → s'.t = s.t + (s.tfinal - s.t)) ∧ (s'.sol.retcode ≠ .Success → s'.sol.retcode = .Continue → Aim s') := by
  obtain ⟨k, s1, -, ha, -, ⟨d, hd, -, hs⟩ | hf⟩ := step_specI Aim.closed (fun h => h)
    (fun {x} _ _ => .of_last (rejectStep_fields x (stepQuot x)).2.2.2.1) hr.reject hA.clampLast h
  · have f := (Frame.clampLast s).trans (ha.frame.trans hs.frame)
    have a := acceptStep_fields d (stepQuot d)
    simp only at a
    rw [← hs.eq] at a
    obtain ⟨-, -, -, -, -, a6, -, -, -, -, -, -, -, -, a15, -⟩ := a
    constructor
    · intro hc
      rw [hc] at a15
      have hl : d.cache.last = true := by
        by_contra hl
        simp only [hl, if_false] at a15
        rw [hs.retcode, ha.retcode, (clampLast_fields s).2.1, hr.retcode] at a15
        cases a15
      rw [a6, hd hl, f.t, f.tfinal]
    · intro hc _
      rw [hs.eq] at hc ⊢
      exact Aim.accept _ hc
  · have h1 := hf.retcode
    have h2 := hf.code
    rw [ha.retcode, (clampLast_fields s).2.1, hr.retcode] at h2
    constructor
    · intro hc; rw [hc] at h2; simp at h2
    · intro _ hc; exact absurd hc h1

end Radau

/-- **C62** The same for `Radau5`: when `integrate()` returns with `Success`, the final time is `t + (tfinal - t)`,
where `t` is the time recorded before it. -/
theorem C62_final_time_radau {b : Builder F n P} {s0 s : Radau.St F n P} (hb : b.build Radau.alg = .ok s0)
    (hs : IntegrateReturns Radau.alg none s0 s) (hc : s.sol.retcode = .Success) :
    ∃ ts t, s.sol.ts = ts ++ [t, t + (b.tfinal - t)] ∧ s.t = t + (b.tfinal - t) := by
  obtain ⟨k, s1, h1, h2⟩ := (integrate_iff Radau.fuelMono).1 hs
  obtain ⟨⟨fuel, h2⟩, -⟩ := stepReturns_none_iff.1 h2
  have B := Radau.build_fields hb
  have hf : s0.tfinal = b.tfinal := by rw [← Res.ok.inj hb]
  have I : Radau.Ready s1 ∧ Radau.Aim s1 ∧ s1.tfinal = b.tfinal ∧ s1.sol.ts.getLast? = some s1.t := by
    refine SomeSteps.induct (alg := Radau.alg) (I := fun _ s => Radau.Ready s ∧ Radau.Aim s ∧ s.tfinal = b.tfinal ∧
      s.sol.ts.getLast? = some s.t) ?_ ?_ h1
    · exact ⟨Radau.build_ready hb, .of_last B.2.2.2.2.2.1, hf, by rw [B.1, B.2.2.2.2.2.2.1]; rfl⟩
    · rintro k s o s' ⟨hr, hA, ht, hg⟩ h1
      obtain ⟨⟨fuel, h1⟩, ho⟩ := stepReturns_none_iff.1 h1
      have hc : s'.sol.retcode = .Continue := by
        by_contra hc
        simp [hc] at ho
      obtain ⟨fr, h | h⟩ := Radau.step_cases hr h1
      · exact ⟨hr.step h1 hc, (hA.step hr h1).2 (by simp [hc]) hc, by rw [fr.tfinal, ht], by rw [h.ts]; simp⟩
      · have := h.retcode; simp [hc] at this
  obtain ⟨hr, hA, ht, hg⟩ := I
  have e := (hA.step hr h2).1 hc
  rw [ht] at e
  obtain ⟨ts, hts⟩ : ∃ ts, s1.sol.ts = ts ++ [s1.t] := by
    rw [List.getLast?_eq_some_iff] at hg
    exact hg
  obtain ⟨-, h | h⟩ := Radau.step_cases hr h2
  · exact ⟨ts, s1.t, by rw [h.ts, e, hts]; simp, e⟩
  · have := h.retcode; simp [hc] at this

end Cyphus
