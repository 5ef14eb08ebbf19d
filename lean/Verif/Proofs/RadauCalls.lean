import Verif.Proofs.RadauCount
/-!
# User calls made by `Radau5` (any arithmetic)
-/

namespace Cyphus
namespace Radau
set_option linter.unusedSectionVars false
set_option autoImplicit false
variable {F : Type} {n : Nat} {P : Type}
  [Add F] [Sub F] [Mul F] [Div F] [Neg F] [OfScientific F] [Fl F]

theorem rhsCalls_append (l m : List (Call F n)) : rhsCalls (l ++ m) = rhsCalls l + rhsCalls m :=
  List.countP_append

theorem jacCalls_append (l m : List (Call F n)) : jacCalls (l ++ m) = jacCalls l + jacCalls m :=
  List.countP_append

/-- The calls made by a finite-difference Jacobian. -/
theorem jacLoop_calls (f : Rhs F n P) (t : F) (p : P) (du0 : Vec n F) (is : List (_root_.Fin n)) (l : JacLoop F n) :
    rhsCalls (is.foldl (jacStep f t p du0) l).calls = rhsCalls l.calls + is.length ∧
    jacCalls (is.foldl (jacStep f t p du0) l).calls = jacCalls l.calls := by
  induction is generalizing l with
  | nil => exact ⟨rfl, rfl⟩
  | cons i is ih =>
    rw [List.foldl_cons, (ih _).1, (ih _).2]
    simp only [jacStep, rhsCalls_append, jacCalls_append, List.length_cons]
    constructor
    · simp [rhsCalls]; omega
    · simp [jacCalls]

/-- The calls made by one evaluation of the Jacobian. -/
theorem jacobian_u_calls (f : Rhs F n P) (j : Option (JacFn F n P)) (m : Mat n F) (u : Vec n F) (t : F)
    (p : P) : rhsCalls (jacobian_u f j m u t p).2 = (if j.isSome then 0 else n + 1) ∧
      jacCalls (jacobian_u f j m u t p).2 = if j.isSome then 1 else 0 := by
  cases j with
  | some j => exact ⟨by simp [jacobian_u, rhsCalls], by simp [jacobian_u, jacCalls]⟩
  | none =>
    have := jacLoop_calls f t p (f p (fun _ => 0.0) u t) (List.finRange n)
      { utemp := u, du1 := fun _ => 0.0, df := m, calls := [Call.rhs t u] }
    simp only [jacobian_u, this.1, this.2]
    constructor
    · simp [rhsCalls]; omega
    · simp [jacCalls]

/-- The Jacobian has been evaluated `j` times since `build()` started; apart from that and from the call
made by `build()`, the right-hand side has been called `function_evals` times. -/
def CallsAre (jac : Bool) (j : Nat) (s : St F n P) : Prop :=
  s.dfdu.isSome = jac ∧
  rhsCalls s.trace = s.stats.function_evals + 1 + (if jac then 0 else (n + 1) * j) ∧
  jacCalls s.trace = if jac then j else 0

def Calls (jac : Bool) (s : St F n P) : Prop := ∃ j, 1 ≤ j ∧ CallsAre jac j s

section
variable {jac : Bool}

theorem Calls.refreshJac {s : St F n P} (h : Calls jac s) : Calls jac (refreshJac s) := by
  obtain ⟨j, hj, h1, h2, h3⟩ := h
  have c := jacobian_u_calls s.dudt s.dfdu s.cache.dfdu s.u s.t s.params
  refine ⟨j + 1, by omega, h1, ?_, ?_⟩
  · show rhsCalls (s.trace ++ _) = _
    rw [rhsCalls_append, h2, c.1, h1]
    show _ = s.stats.function_evals + 1 + _
    cases jac
    · simp [Nat.mul_succ]; omega
    · simp
  · show jacCalls (s.trace ++ _) = _
    rw [jacCalls_append, h3, c.2, h1]
    cases jac <;> simp

theorem Calls.addRhs {s s' : St F n P} (h : Calls jac s) (m : Nat) (l : List (Call F n))
    (hd : s'.dfdu = s.dfdu)
    (hf : s'.stats.function_evals = s.stats.function_evals + m) (ht : s'.trace = s.trace ++ l)
    (h1 : rhsCalls l = m) (h2 : jacCalls l = 0) : Calls jac s' := by
  obtain ⟨j, hj, g1, g2, g3⟩ := h
  refine ⟨j, hj, by rw [hd, g1], ?_, ?_⟩
  · rw [ht, rhsCalls_append, g2, hf, h1]; omega
  · rw [ht, jacCalls_append, g3, h2]; omega

theorem Calls.closed : Closed (Calls jac : St F n P → Prop) where
  facs h := h
  real h e := by obtain ⟨r, -, rfl⟩ := decomp_real_ok e; exact h
  cplx h e := by obtain ⟨r, -, rfl⟩ := decomp_complex_ok e; exact h
  count h := h
  fail {s} h := by
    simp only [decFail, halveStep]
    split
    · exact h
    · split
      · exact Calls.refreshJac (show Calls jac _ from h)
      · exact h
  init {s} h := by
    simp only [newtonInit, prepare_newton]
    split <;> exact h
  rhs {s} h := h.addRhs 3 _ rfl rfl rfl (by simp [rhsCalls]) (by simp [jacCalls])
  solve h _ := h
  theta _ _ _ h := h
  slow {s} d h _ _ := by
    simp only [slowStep]
    split
    · exact Calls.refreshJac (show Calls jac _ from h)
    · exact h
  halve {s} h := by
    simp only [halveStep]
    split
    · exact Calls.refreshJac (show Calls jac _ from h)
    · exact h
  upd h := h
  err1 h := h
  err2 {s} h := h.addRhs 1 _ rfl rfl rfl (by simp [rhsCalls]) (by simp [jacCalls])
  decomp h := h

theorem Calls.reject {s : St F n P} (q : F) (h : Calls jac s) : Calls jac (rejectStep s q) := by
  simp only [rejectStep]
  split <;> split
  · exact Calls.refreshJac (show Calls jac _ from h)
  · exact h
  · exact Calls.refreshJac (show Calls jac _ from h)
  · exact h

theorem Calls.finishNext {s : St F n P} (h : Calls jac s) : Calls jac (finishNext s) := by
  simp only [Radau.finishNext]
  split
  · exact Calls.refreshJac (show Calls jac _ from h)
  · exact h

theorem Calls.accept {s : St F n P} (q : F) (h : Calls jac s) : Calls jac (acceptStep s q) := by
  have h1 : Calls jac (acceptState (countAccept s)) := by
    simp only [acceptState]
    split <;> exact h
  simp only [acceptStep]
  split
  · exact h1
  · have h2 : Calls jac (newDeriv (acceptState (countAccept s))) :=
      h1.addRhs 1 _ rfl rfl rfl (by simp [rhsCalls]) (by simp [jacCalls])
    generalize newDeriv (acceptState (countAccept s)) = a at h2
    simp only [nextStep]
    split
    · exact Calls.finishNext (show Calls jac _ from h2)
    · split
      · exact h2
      · exact Calls.finishNext (show Calls jac _ from h2)

theorem Calls.step {fuel : Nat} {s s' : St F n P} (hs : Calls jac s) (h : step fuel s = .ok s') :
    Calls jac s' := by
  refine Closed.step (I := Calls jac) Calls.closed ?_ (fun h => h) (fun h _ => h.reject _)
    (fun h _ => h.accept _) (fun _ h => h) hs h
  intro s h
  simp only [clampLast]
  split <;> exact h

end

theorem Calls.build [FlInf F] {b : Builder F n P} {s : St F n P} (h : b.build Radau.alg = .ok s) :
    Calls b.dfdu.isSome s := by
  have h' : s = _ := (Res.ok.inj h).symm
  subst h'
  have c := jacobian_u_calls b.dudt b.dfdu (fun _ _ => 0.0) b.u b.t b.params
  refine ⟨1, Nat.le_refl _, rfl, ?_, ?_⟩
  · show rhsCalls ([Call.rhs b.t b.u] ++ _) = _
    rw [rhsCalls_append, c.1]
    simp [rhsCalls, Stats.new]
  · show jacCalls ([Call.rhs b.t b.u] ++ _) = _
    rw [jacCalls_append, c.2]
    simp [jacCalls]

end Radau
end Cyphus
