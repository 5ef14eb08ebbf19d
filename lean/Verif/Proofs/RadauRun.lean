import Verif.Proofs.RadauNum
import Verif.Props.RadauControl
import Verif.Props.Jacobian
/-!
# Runs of `Radau5` for real problems
-/

namespace Cyphus
open X
set_option autoImplicit false
set_option linter.unusedSectionVars false

namespace Radau

section any
variable {F : Type} {n : Nat} {P : Type}
  [Add F] [Sub F] [Mul F] [Div F] [Neg F] [OfScientific F] [Fl F] [FlInf F]

/-- Induction over a run and its last step. -/
theorem run_induct {b : Builder F n P} {s0 s : St F n P} (hb : b.build alg = .ok s0) {I : St F n P → Prop} (h0 : I s0)
    (hstep : ∀ {s s' : St F n P} {fuel : Nat}, Ready s → I s → step fuel s = .ok s' → I s')
    (hs : (∃ k, SomeSteps alg none k s0 s) ∨ IntegrateReturns alg none s0 s) : I s := by
  have some : ∀ {k : Nat} {s : St F n P}, SomeSteps alg none k s0 s → Ready s ∧ I s := by
    intro k s hs
    refine SomeSteps.induct (alg := alg) (I := fun _ s => Ready s ∧ I s) ⟨build_ready hb, h0⟩ ?_ hs
    rintro k s o s' ⟨hr, hi⟩ h1
    obtain ⟨⟨fuel, h1⟩, ho⟩ := stepReturns_none_iff.1 h1
    have hc : s'.sol.retcode = .Continue := by
      by_contra hc
      simp [hc] at ho
    exact ⟨hr.step h1 hc, hstep hr hi h1⟩
  rcases hs with ⟨k, hs⟩ | hs
  · exact (some hs).2
  · obtain ⟨k, s1, h1, h2⟩ := (integrate_iff fuelMono).1 hs
    obtain ⟨⟨fuel, h2⟩, -⟩ := stepReturns_none_iff.1 h2
    exact hstep (some h1).1 (some h1).2 h2

end any

noncomputable section
variable {n : ℕ} {P : Type} {b : Builder X n P} {f : ℝ → (_root_.Fin n → ℝ) → _root_.Fin n → ℝ}
  {jac : ℝ → (_root_.Fin n → ℝ) → _root_.Fin n → _root_.Fin n → ℝ} {u0 : _root_.Fin n → ℝ} {C : Clock} {s0 : St X n P}

theorem fdIncrement_pos (x : ℝ) : 0 < Spec.fdIncrement x ∧ Spec.fdIncrement (fin x) = fin (Spec.fdIncrement x) := by
  have h := RealFl.eps_pos
  have h2 : (0:ℝ) < max x 1e-5 := lt_max_of_lt_right (by norm_num)
  refine ⟨Real.sqrt_pos.2 (mul_pos h h2), ?_⟩
  unfold Spec.fdIncrement
  rw [show (1e-5 : X) = fin 1e-5 from rfl, max_fin, eps_fin, mul_fin, sqrt_fin (mul_pos h h2).le]
  rfl

/-- The Jacobian computed at a finite point. -/
theorem RealProblem.jacs (R : RealProblem b f jac u0) (buf : Mat n X) (u : _root_.Fin n → ℝ) (t : ℝ) :
    (jacobian_u b.dudt b.dfdu buf (fv u) (fin t) b.params).1 = fmat (jac t u) := by
  have hj := R.jac
  cases hd : b.dfdu with
  | some g =>
    rw [hd] at hj
    exact hj buf u t
  | none =>
    rw [hd] at hj
    change jac = _ at hj
    have e : ∀ i, Spec.bump (fv u) i (Spec.fdIncrement (fv u i)) = fv (Spec.bump u i (Spec.fdIncrement (u i))) := by
      intro i
      funext k
      simp only [Spec.bump, fv, (fdIncrement_pos (u i)).2]
      split
      · rw [add_fin]
      · rfl
    rw [jacobian_u_at buf (fv u) (fun _ => 0.0) (fin t) b.params (fun _ => by rw [R.rhs, R.rhs])
      (fun _ i => by rw [e, R.rhs, R.rhs])]
    funext j i
    dsimp only
    rw [e, R.rhs, R.rhs, fv_apply, fv_apply, fv_apply, (fdIncrement_pos (u i)).2, sub_fin,
      div_fin (fdIncrement_pos (u i)).1.ne', hj]
    rfl

/-- The environment of the invariants. -/
def env (f : ℝ → (_root_.Fin n → ℝ) → _root_.Fin n → ℝ)
    (jac : ℝ → (_root_.Fin n → ℝ) → _root_.Fin n → _root_.Fin n → ℝ) (V : Submodule ℝ (_root_.Fin n → ℝ))
    (u0 : _root_.Fin n → ℝ) : NEnv n := ⟨f, jac, V, u0⟩

/-- After `build()`. -/
theorem RealProblem.idle {V : Submodule ℝ (_root_.Fin n → ℝ)} (R : RealProblem b f jac u0) (T : Timed C b)
    (hok : (env f jac V u0).Ok (C.Sane ∧ C.t0 ≤ C.tf)) (hb : b.build alg = .ok s0) :
    IdleN (env f jac V u0) C (C.Sane ∧ C.t0 ≤ C.tf) C.t0 s0 := by
  have e1 : s0.dudt = b.dudt := by rw [← Res.ok.inj hb]
  have e2 : s0.dfdu = b.dfdu := by rw [← Res.ok.inj hb]
  have e3 : s0.params = b.params := by rw [← Res.ok.inj hb]
  have e4 : s0.cache.decompose = true := by rw [← Res.ok.inj hb]
  have e5 : s0.cache.first = true := by rw [← Res.ok.inj hb]
  have e6 : s0.u = b.u := by rw [← Res.ok.inj hb]
  have e7 : s0.cache.u0 = b.dudt b.params (fun _ => 0.0) b.u b.t := by rw [← Res.ok.inj hb]
  have e8 : s0.cache.dfdu = (jacobian_u b.dudt b.dfdu (fun _ _ => 0.0) b.u b.t b.params).1 := by rw [← Res.ok.inj hb]
  have m0 : u0 - (env f jac V u0).u0 ∈ (env f jac V u0).V := by
    change u0 - u0 ∈ V
    rw [sub_self]; exact V.zero_mem
  refine ⟨⟨_, T.idle hb⟩, ⟨hok, by rw [e1, e3]; exact R.rhs, fun buf u t => by rw [e1, e2, e3]; exact R.jacs buf u t,
    ⟨u0, by rw [e6, R.u], m0⟩, ⟨f C.t0 u0, hok.f_mem _ _ m0, by rw [e7, R.u, T.t, R.rhs]⟩,
    ?_, ?_, ?_, ?_, ?_, ?_, ?_, ?_, ?_, ⟨jac C.t0 u0, by rw [e8, R.u, T.t, R.jacs], hok.jac_ok _ _ m0⟩,
    fun h => by rw [e5] at h; simp at h⟩, fun h => by rw [e4] at h; simp at h⟩
  all_goals
    have : InV (env f jac V u0).V (fun _ => (0.0 : X)) := .zero
    rw [← Res.ok.inj hb]
    exact this

/-- The invariant of a run: finite points in `u0 + V`. -/
structure RunN (E : NEnv n) (C : Clock) (fwd : Prop) (s : St X n P) : Prop where
  pts : ∃ l, Recorded s.sol l ∧ ∀ p ∈ l, p.2 - E.u0 ∈ E.V
  idle : s.sol.retcode = .Continue → ∃ t, IdleN E C fwd t s

theorem RunN.step {E : NEnv n} {fwd : Prop} {s s' : St X n P} {fuel : ℕ} (hr : Ready s) (H : RunN E C fwd s)
    (h : step fuel s = .ok s') : RunN E C fwd s' := by
  obtain ⟨t, hI⟩ := H.idle hr.retcode
  obtain ⟨l, hl, hm⟩ := H.pts
  obtain ⟨k, a, s1, s2, h', hf, J, ha, D, S⟩ | ⟨c1, c2, c3, c4⟩ := hI.step hr h
  · refine ⟨?_, fun _ => ⟨_, S.idle⟩⟩
    obtain ⟨-, hA | hF⟩ := step_cases hr h
    · obtain ⟨v, hv, hm'⟩ := S.idle.num.u
      obtain ⟨h2, hi⟩ := S.idle.idle
      refine ⟨l ++ [(t + h', v)], ⟨by rw [hA.ts, hl.1, hi.time]; simp, by rw [hA.us, hl.2, hv]; simp⟩, fun p hp => ?_⟩
      rcases List.mem_append.1 hp with hp | hp
      · exact hm p hp
      · simp at hp
        subst hp
        exact hm'
    · exact ⟨l, ⟨by rw [hF.frame.ts]; exact hl.1, by rw [hF.frame.us]; exact hl.2⟩, hm⟩
  · exact ⟨⟨l, ⟨by rw [c3]; exact hl.1, by rw [c4]; exact hl.2⟩, hm⟩, fun h => absurd h c1⟩

theorem RealProblem.run {V : Submodule ℝ (_root_.Fin n → ℝ)} (R : RealProblem b f jac u0) (T : Timed C b)
    (hok : (env f jac V u0).Ok (C.Sane ∧ C.t0 ≤ C.tf)) (hb : b.build alg = .ok s0) {s : St X n P}
    (hs : (∃ k, SomeSteps alg none k s0 s) ∨ IntegrateReturns alg none s0 s) :
    RunN (env f jac V u0) C (C.Sane ∧ C.t0 ≤ C.tf) s := by
  refine run_induct hb ?_ (fun hr H h => H.step hr h) hs
  have hI := R.idle T hok hb
  obtain ⟨h1, h2, -⟩ := build_fields hb
  refine ⟨⟨[(C.t0, u0)], ⟨?_, ?_⟩, fun p hp => ?_⟩, fun _ => ⟨_, hI⟩⟩
  · rw [h1, T.t]; rfl
  · rw [h2, R.u]; rfl
  · simp at hp
    subst hp
    change u0 - u0 ∈ V
    rw [sub_self]; exact V.zero_mem

end
end Radau
end Cyphus
