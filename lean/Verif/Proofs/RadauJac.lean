import Verif.Proofs.RadauCount
import Verif.Ode.Run
import Verif.Proofs.RunInv
/-!
# Which Jacobian `Radau5` uses (any arithmetic)
-/

namespace Cyphus
namespace Radau
set_option linter.unusedSectionVars false
set_option autoImplicit false
variable {F : Type} {n : Nat} {P : Type}
  [Add F] [Sub F] [Mul F] [Div F] [Neg F] [OfScientific F] [Fl F]
variable {f : Rhs F n P} {g : Option (JacFn F n P)} {p : P}

/-- The problem is the given one, the current point is recorded, and the Jacobian was computed at a recorded
point. -/
def JacInv (f : Rhs F n P) (g : Option (JacFn F n P)) (p : P) (s : St F n P) : Prop :=
  (s.dudt = f ∧ s.dfdu = g ∧ s.params = p ∧ s.sol.ts.length = s.sol.us.length) ∧
  (s.t, s.u) ∈ s.sol.ts.zip s.sol.us ∧
  ∃ x ∈ s.sol.ts.zip s.sol.us, ∃ buf, s.cache.dfdu = (jacobian_u f g buf x.2 x.1 p).1

theorem JacInv.refresh {s : St F n P} (h : JacInv f g p s) : JacInv f g p (refreshJac s) := by
  obtain ⟨h1, h2, -⟩ := h
  refine ⟨h1, h2, (s.t, s.u), h2, s.cache.dfdu, ?_⟩
  obtain ⟨rfl, rfl, rfl, -⟩ := h1
  rfl

theorem JacInv.closed : Closed (JacInv f g p : St F n P → Prop) where
  facs h := h
  real h e := by obtain ⟨r, -, rfl⟩ := decomp_real_ok e; exact h
  cplx h e := by obtain ⟨r, -, rfl⟩ := decomp_complex_ok e; exact h
  count h := h
  fail {s} h := by
    simp only [decFail, halveStep]
    split
    · exact h
    · split
      · exact JacInv.refresh (show JacInv f g p _ from h)
      · exact h
  init {s} h := by
    simp only [newtonInit, prepare_newton]
    split <;> exact h
  rhs h := h
  solve h _ := h
  theta _ _ _ h := h
  slow {s} d h _ _ := by
    simp only [slowStep]
    split
    · exact JacInv.refresh (show JacInv f g p _ from h)
    · exact h
  halve {s} h := by
    simp only [halveStep]
    split
    · exact JacInv.refresh (show JacInv f g p _ from h)
    · exact h
  upd h := h
  err1 h := h
  err2 h := h
  decomp h := h

theorem JacInv.reject {s : St F n P} (q : F) (h : JacInv f g p s) : JacInv f g p (rejectStep s q) := by
  simp only [rejectStep]
  split <;> split
  · exact JacInv.refresh (show JacInv f g p _ from h)
  · exact h
  · exact JacInv.refresh (show JacInv f g p _ from h)
  · exact h

theorem JacInv.finishNext {s : St F n P} (h : JacInv f g p s) : JacInv f g p (finishNext s) := by
  simp only [Radau.finishNext]
  split
  · exact JacInv.refresh (show JacInv f g p _ from h)
  · exact h

theorem JacInv.accept {s : St F n P} (q : F) (h : JacInv f g p s) : JacInv f g p (acceptStep s q) := by
  have key : ∀ a : St F n P, a.dudt = s.dudt → a.dfdu = s.dfdu → a.params = s.params →
      a.sol.ts = s.sol.ts ++ [a.t] → a.sol.us = s.sol.us ++ [a.u] → a.cache.dfdu = s.cache.dfdu → JacInv f g p a := by
    intro a e1 e2 e3 e4 e5 e6
    obtain ⟨⟨h1, h2, h3, h4⟩, -, x, hx, buf, hb⟩ := h
    have ez : a.sol.ts.zip a.sol.us = s.sol.ts.zip s.sol.us ++ [(a.t, a.u)] := by
      rw [e4, e5, List.zip_append h4]; rfl
    refine ⟨⟨by rw [e1, h1], by rw [e2, h2], by rw [e3, h3], by rw [e4, e5]; simp [h4]⟩, by rw [ez]; simp, x, ?_, buf,
      by rw [e6, hb]⟩
    rw [ez]; exact List.mem_append_left _ hx
  have h1 : JacInv f g p (acceptState (countAccept s)) := by
    apply key <;> simp only [acceptState] <;> split <;> rfl
  simp only [acceptStep]
  split
  · exact h1
  · have h2 : JacInv f g p (newDeriv (acceptState (countAccept s))) := h1
    generalize newDeriv (acceptState (countAccept s)) = a at h2
    simp only [nextStep]
    split
    · exact JacInv.finishNext (show JacInv f g p _ from h2)
    · split
      · exact h2
      · exact JacInv.finishNext (show JacInv f g p _ from h2)

theorem JacInv.step {fuel : Nat} {s s' : St F n P} (hs : JacInv f g p s) (h : step fuel s = .ok s') :
    JacInv f g p s' := by
  refine Closed.step (I := JacInv f g p) JacInv.closed ?_ (fun h => h) (fun h _ => h.reject _)
    (fun h _ => h.accept _) (fun _ h => h) hs h
  intro s h
  simp only [clampLast]
  split <;> exact h

variable [FlInf F]

theorem JacInv.build {b : Builder F n P} {s0 : St F n P} (hb : b.build alg = .ok s0) :
    JacInv b.dudt b.dfdu b.params s0 := by
  rw [← Res.ok.inj hb]
  exact ⟨⟨rfl, rfl, rfl, rfl⟩, List.mem_singleton.2 rfl, (b.t, b.u), List.mem_singleton.2 rfl, _, rfl⟩

end Radau
end Cyphus
