import Verif.Spec.Symmetry
import Verif.Proofs.RadauDet
/-!
# The algorithm of RADAU5 commutes with renumbering, sign changes and shifts of time
-/

namespace Cyphus
namespace Spec
set_option autoImplicit false
set_option linter.unusedSectionVars false
noncomputable section
variable {n : ℕ} {S : Coord n}

theorem Coord.sq (S : Coord n) (i : Fin n) : S.sign i * S.sign i = 1 := by
  rcases S.unit i with h | h <;> rw [h] <;> norm_num

theorem Coord.abs (S : Coord n) (i : Fin n) : |S.sign i| = 1 := by
  rcases S.unit i with h | h <;> rw [h] <;> norm_num

/-- Sums over the components in the new numbering. -/
theorem Coord.sum {K : Type} [AddCommMonoid K] (S : Coord n) (g : Fin n → K) : ∑ i, g (S.perm i) = ∑ i, g i :=
  Equiv.sum_comp S.perm g

theorem Coord.vec_add (S : Coord n) (u v : Fin n → ℝ) : S.vec (u + v) = S.vec u + S.vec v := by
  funext i
  simp only [Coord.vec, Pi.add_apply]
  ring

theorem Coord.mul (S : Coord n) (J : Fin n → Fin n → ℝ) (v : Fin n → ℝ) (i : Fin n) :
    ∑ j, S.mat J i j * S.vec v j = S.sign i * ∑ j, J (S.perm i) j * v j := by
  rw [← S.sum fun j => J (S.perm i) j * v j, Finset.mul_sum]
  refine Finset.sum_congr rfl fun j _ => ?_
  have := S.sq j
  simp only [Coord.mat, Coord.vec]
  linear_combination (S.sign i * J (S.perm i) (S.perm j) * v (S.perm j)) * this

/-- Eigenvalues do not change. -/
theorem NotEigen.coord {K : Type} [Field K] (π : Equiv.Perm (Fin n)) (s : Fin n → K) (hs : ∀ i, s i * s i = 1)
    (J : Fin n → Fin n → K) (lam : K) : NotEigen (fun i j => s i * s j * J (π i) (π j)) lam ↔ NotEigen J lam := by
  constructor
  · intro H w hw
    have := H (fun i => s i * w (π i)) fun i => by
      have e : ∑ j, s i * s j * J (π i) (π j) * (s j * w (π j)) = s i * ∑ j, J (π i) j * w j := by
        rw [← Equiv.sum_comp π fun j => J (π i) j * w j, Finset.mul_sum]
        refine Finset.sum_congr rfl fun j _ => ?_
        linear_combination (s i * J (π i) (π j) * w (π j)) * hs j
      rw [e, hw]
      ring
    funext k
    have h := congrFun this (π.symm k)
    simp only [Equiv.apply_symm_apply, Pi.zero_apply] at h
    have hne : s (π.symm k) ≠ 0 := fun h0 => by simpa [h0] using hs (π.symm k)
    simpa [hne] using h
  · intro H v hv
    have := H (fun k => s (π.symm k) * v (π.symm k)) fun k => by
      have h := hv (π.symm k)
      simp only [Equiv.apply_symm_apply] at h
      have e : ∑ j, J k j * (s (π.symm j) * v (π.symm j)) = s (π.symm k) * ∑ j, s (π.symm k) * s j * J k (π j) * v j := by
        rw [← Equiv.sum_comp π fun j => J k j * (s (π.symm j) * v (π.symm j)), Finset.mul_sum]
        refine Finset.sum_congr rfl fun j _ => ?_
        rw [Equiv.symm_apply_apply]
        linear_combination -(s j * J k (π j) * v j) * hs (π.symm k)
      rw [e, h]
      ring
    funext i
    have h := congrFun this (π i)
    simp only [Equiv.symm_apply_apply, Pi.zero_apply] at h
    have hne : s i ≠ 0 := fun h0 => by simpa [h0] using hs i
    simpa [hne] using h

theorem newtonNorm_coord (S : Coord n) (a r : ℝ) (u : Fin n → ℝ) (Δ : Fin 3 → Fin n → ℝ) :
    newtonNorm a r (S.vec u) (fun k => S.vec (Δ k)) = newtonNorm a r u Δ := by
  unfold newtonNorm
  congr 2
  rw [← S.sum fun i => ∑ k, (Δ k i / (a + r * |u i|)) ^ 2]
  refine Finset.sum_congr rfl fun i _ => Finset.sum_congr rfl fun k _ => ?_
  have := S.sq i
  simp only [Coord.vec, abs_mul, S.abs, one_mul, mul_div_assoc, mul_pow, pow_two (S.sign i), this]

theorem scaledNorm_coord (S : Coord n) (a r : ℝ) (u e : Fin n → ℝ) :
    scaledNorm a r (S.vec u) (S.vec e) = scaledNorm a r u e := by
  unfold scaledNorm
  congr 2
  rw [← S.sum fun i => (e i / (a + r * |u i|)) ^ 2]
  refine Finset.sum_congr rfl fun i _ => ?_
  have := S.sq i
  simp only [Coord.vec, abs_mul, S.abs, one_mul, mul_div_assoc, mul_pow, pow_two (S.sign i), this]

theorem Extrapolates.coord (S : Coord n) {c : Fin 3 → ℝ} {t h h' : ℝ} {u : Fin n → ℝ} {z y : Fin 3 → Fin n → ℝ}
    (H : Extrapolates c t h u z h' y) :
    Extrapolates c (t + S.c) h (S.vec u) (fun k => S.vec (z k)) h' (fun k => S.vec (y k)) := by
  intro i
  obtain ⟨q, h1, h2, h3, h4⟩ := H (S.perm i)
  have ev : ∀ x, (Polynomial.C (S.sign i) * q.comp (Polynomial.X - Polynomial.C S.c)).eval (x + S.c) = S.sign i * q.eval x := by
    intro x
    simp [Polynomial.eval_comp]
  refine ⟨Polynomial.C (S.sign i) * q.comp (Polynomial.X - Polynomial.C S.c), ?_, ?_, fun k => ?_, fun k => ?_⟩
  · refine Polynomial.degree_le_of_natDegree_le ((Polynomial.natDegree_C_mul_le _ _).trans ?_)
    refine Polynomial.natDegree_comp_le.trans ?_
    rw [Polynomial.natDegree_X_sub_C, mul_one]
    exact Polynomial.natDegree_le_of_degree_le h1
  · rw [ev, h2]
    rfl
  · rw [show t + S.c + c k * h = (t + c k * h) + S.c by ring, ev, h3]
    simp only [Coord.vec]
    ring
  · rw [show t + S.c + h + c k * h' = (t + h + c k * h') + S.c by ring, ev, ← h4]
    simp only [Coord.vec]
    ring

theorem IsErrEstimate.coord (S : Coord n) {γ hf h : ℝ} {J : Fin n → Fin n → ℝ} {d e : Fin n → ℝ} {z : Fin 3 → Fin n → ℝ}
    (H : IsErrEstimate γ hf h J d z e) : IsErrEstimate γ hf h (S.mat J) (S.vec d) (fun k => S.vec (z k)) (S.vec e) := by
  intro i
  have := H (S.perm i)
  rw [S.mul]
  have e1 : ∑ k, radauE k * S.vec (z k) i = S.sign i * ∑ k, radauE k * z k (S.perm i) := by
    rw [Finset.mul_sum]
    refine Finset.sum_congr rfl fun k _ => ?_
    simp only [Coord.vec]
    ring
  rw [e1]
  simp only [Coord.vec]
  linear_combination S.sign i * this

theorem lin_coord (S : Coord n) (w : Fin 3 → ℝ) (g : Fin 3 → Fin n → ℝ) (i : Fin n) :
    ∑ l, w l * S.vec (g l) i = S.sign i * ∑ l, w l * g l (S.perm i) := by
  rw [Finset.mul_sum]
  refine Finset.sum_congr rfl fun k _ => ?_
  simp only [Coord.vec]
  ring

theorem NewtonPass.coord (S : Coord n) {M : Transform} {c : Fin 3 → ℝ} {f f' : ℝ → (Fin n → ℝ) → Fin n → ℝ}
    (hf' : ∀ t u, f' (t + S.c) (S.vec u) = S.vec (f t u)) {J : Fin n → Fin n → ℝ} {t h hf : ℝ} {u : Fin n → ℝ}
    {g y Δ z : Fin 3 → Fin n → ℝ} (H : NewtonPass M c f J t h hf u g y Δ z) :
    NewtonPass M c f' (S.mat J) (t + S.c) h hf (S.vec u) (fun k => S.vec (g k)) (fun k => S.vec (y k)) (fun k => S.vec (Δ k))
      (fun k => S.vec (z k)) := by
  refine ⟨fun k i => ?_, ?_, fun k i => ?_⟩
  · have h1 := H.system k (S.perm i)
    have e1 : ∑ l, M.Lam k l * (S.vec (g l) i + S.vec (Δ l) i) = S.sign i * ∑ l, M.Lam k l * (g l (S.perm i) + Δ l (S.perm i)) := by
      rw [Finset.mul_sum]
      refine Finset.sum_congr rfl fun k _ => ?_
      simp only [Coord.vec]
      ring
    have e2 : ∑ l, M.TI k l * f' (t + S.c + c l * h) (S.vec u + S.vec (y l)) i =
        S.sign i * ∑ l, M.TI k l * f (t + c l * h) (u + y l) (S.perm i) := by
      rw [Finset.mul_sum]
      refine Finset.sum_congr rfl fun l _ => ?_
      rw [show t + S.c + c l * h = (t + c l * h) + S.c by ring, ← S.vec_add, hf']
      simp only [Coord.vec]
      ring
    rw [S.mul, e1, e2]
    linear_combination S.sign i * h1
  · refine H.start.imp (fun h1 k i => ?_) fun h1 k i => ?_
    · rw [lin_coord, ← h1]
      rfl
    · rw [lin_coord, ← h1]
      rfl
  · have h1 := H.result k (S.perm i)
    have e1 : ∑ l, M.T k l * (S.vec (g l) i + S.vec (Δ l) i) = S.sign i * ∑ l, M.T k l * (g l (S.perm i) + Δ l (S.perm i)) := by
      rw [Finset.mul_sum]
      refine Finset.sum_congr rfl fun k _ => ?_
      simp only [Coord.vec]
      ring
    rw [e1, ← h1]
    rfl

namespace Radau5

/-- The problem in the new coordinates. -/
def Problem.moved (A : Problem n) (S : Coord n) (f' : ℝ → (Fin n → ℝ) → Fin n → ℝ)
    (jac' : ℝ → (Fin n → ℝ) → Fin n → Fin n → ℝ) : Problem n :=
  { A with f := f', jac := jac', C := { A.C with t0 := A.C.t0 + S.c, tf := A.C.tf + S.c } }

def Past.moved (S : Coord n) (p : Past n) : Past n :=
  { p with t := p.t + S.c, u := S.vec p.u, z := fun k => S.vec (p.z k) }

def State.moved (S : Coord n) (σ : State n) : State n :=
  { σ with t := σ.t + S.c, u := S.vec σ.u, J := S.mat σ.J, Jf := S.mat σ.Jf, past := σ.past.map (Past.moved S) }

def Trial.moved (S : Coord n) (x : Trial n) : Trial n := { x with J := S.mat x.J, Jf := S.mat x.Jf }

variable {A : Problem n} {σ : State n} {x y : Trial n} {f' : ℝ → (Fin n → ℝ) → Fin n → ℝ}
  {jac' : ℝ → (Fin n → ℝ) → Fin n → Fin n → ℝ}

theorem Trial.moved_Jm (S : Coord n) (x : Trial n) : (x.moved S).Jm = S.mat x.Jm := by
  cases h : x.fresh <;> simp [Trial.Jm, Trial.moved, h]

theorem Trial.moved_hm (S : Coord n) (x : Trial n) : (x.moved S).hm = x.hm := rfl

theorem moved_d (A : Problem n) (S : Coord n) : (A.moved S f' jac').C.d = A.C.d := by
  simp [Radau.Clock.d, Problem.moved]

theorem moved_isSome (σ : State n) (S : Coord n) : (σ.moved S).past.isSome = σ.past.isSome := by
  simp [State.moved]

theorem State.moved_first (hd : A.C.d = 1) (σ : State n) :
    (σ.moved S).first (A.moved S f' jac') = (σ.first A).moved S := by
  have e : (σ.t + S.c) + σ.h * 1.0001 - (A.C.tf + S.c) * 1 = σ.t + σ.h * 1.0001 - A.C.tf * 1 := by ring
  have hd' : (A.moved S f' jac').C.d = 1 := by rw [moved_d, hd]
  unfold State.first Trial.moved Radau.Clock.tried
  rw [hd', hd]
  simp only [State.moved, Problem.moved, e]
  congr 1
  split_ifs <;> ring

theorem Regular.moved (J : Fin n → Fin n → ℝ) (h : ℝ) : (A.moved S f' jac').Regular (S.mat J) h ↔ A.Regular J h := by
  have h1 := NotEigen.coord S.perm S.sign S.sq J (A.M.γ / h)
  have h2 := NotEigen.coord S.perm (fun i => (S.sign i : ℂ)) (fun i => by exact_mod_cast S.sq i) (fun i j => (J i j : ℂ))
    ⟨A.M.α / h, A.M.β / h⟩
  unfold Problem.Regular
  refine and_congr h1 (Iff.trans ?_ h2)
  have : (fun i j => (S.mat J i j : ℂ)) = fun i j => (S.sign i : ℂ) * S.sign j * (J (S.perm i) (S.perm j) : ℂ) := by
    funext i j
    simp [Coord.mat]
  rw [this]
  rfl

theorem Start.moved {h : ℝ} {y : Fin 3 → Fin n → ℝ} (H : Start A σ h y) :
    Start (A.moved S f' jac') (σ.moved S) h (fun k => S.vec (y k)) := by
  have z : (fun k => S.vec ((0 : Fin 3 → Fin n → ℝ) k)) = 0 := by
    funext k i
    simp [Coord.vec]
  unfold Start at H ⊢
  rw [show (A.moved S f' jac').ext = A.ext from rfl, show (σ.moved S).past = σ.past.map (Past.moved S) from rfl]
  cases hx : A.ext with
  | false =>
    rw [hx] at H
    change y = 0 at H
    subst H
    exact z
  | true =>
    cases hp : σ.past with
    | none =>
      rw [hx, hp] at H
      change y = 0 at H
      subst H
      exact z
    | some p =>
      rw [hx, hp] at H
      exact Extrapolates.coord S H

theorem norms_moved (S : Coord n) (Δ : ℕ → Fin 3 → Fin n → ℝ) :
    norms (A.moved S f' jac') (σ.moved S) (fun j k => S.vec (Δ j k)) = norms A σ Δ := by
  funext k
  exact newtonNorm_coord S _ _ _ _

theorem Passes.moved (W : S.Same A.f f' A.jac jac') {m : ℕ} {g y Δ : ℕ → Fin 3 → Fin n → ℝ} (H : Passes A σ x m g y Δ) :
    Passes (A.moved S f' jac') (σ.moved S) (x.moved S) m (fun j k => S.vec (g j k)) (fun j k => S.vec (y j k))
      (fun j k => S.vec (Δ j k)) := by
  refine ⟨H.start.moved, fun k i => ?_, fun j hj => ?_, fun j hj => ?_, H.step, H.factored.1, ?_⟩
  · change S.vec (g 0 k) i = ∑ l, A.M.TI k l * S.vec (y 0 l) i
    rw [lin_coord, ← H.transf]
    rfl
  · rw [Trial.moved_Jm]
    exact (H.pass j hj).coord S W.rhs
  · funext k i
    rw [H.add j hj]
    simp only [Coord.vec]
    ring
  · rw [Trial.moved_Jm, Regular.moved]
    exact H.factored.2

theorem Iterates.moved (W : S.Same A.f f' A.jac jac') {m : ℕ} {z : Fin 3 → Fin n → ℝ} {θ η : ℝ} {e : Ending}
    (H : Iterates A σ x m z θ η e) :
    Iterates (A.moved S f' jac') (σ.moved S) (x.moved S) m (fun k => S.vec (z k)) θ η e := by
  obtain ⟨g, y, Δ, h1, rfl, rfl, h2⟩ := H
  refine ⟨_, _, _, h1.moved W, rfl, ?_, ?_⟩
  · rw [norms_moved]
    rfl
  · rw [norms_moved]
    exact h2

theorem Err.moved (W : S.Same A.f f' A.jac jac') {z : Fin 3 → Fin n → ℝ} {err : ℝ} (H : Err A σ x z err) :
    Err (A.moved S f' jac') (σ.moved S) (x.moved S) (fun k => S.vec (z k)) err := by
  obtain ⟨e, h1, h2⟩ := H
  have g1 : ∀ e, IsErrEstimate A.M.γ x.hm x.h x.Jm (A.f σ.t σ.u) z e →
      IsErrEstimate A.M.γ x.hm x.h (x.moved S).Jm (f' (σ.t + S.c) (S.vec σ.u)) (fun k => S.vec (z k)) (S.vec e) := by
    intro e he
    rw [Trial.moved_Jm, W.rhs]
    exact he.coord S
  have g2 : ∀ e e', IsErrEstimate A.M.γ x.hm x.h x.Jm (A.f σ.t (σ.u + e)) z e' →
      IsErrEstimate A.M.γ x.hm x.h (x.moved S).Jm (f' (σ.t + S.c) (S.vec σ.u + S.vec e)) (fun k => S.vec (z k)) (S.vec e') := by
    intro e e' he
    rw [Trial.moved_Jm, ← S.vec_add, W.rhs]
    exact he.coord S
  refine ⟨S.vec e, g1 e h1, ?_⟩
  rw [moved_isSome]
  change if scaledNorm A.a A.r (S.vec σ.u) (S.vec e) < 1 ∨ σ.past.isSome ∧ x.retried = false then
      err = max (scaledNorm A.a A.r (S.vec σ.u) (S.vec e)) 1e-10 else _
  rw [scaledNorm_coord]
  split at h2
  · rename_i h
    rw [if_pos h]
    exact h2
  · rename_i h
    rw [if_neg h]
    obtain ⟨e', h3, h4⟩ := h2
    exact ⟨S.vec e', g2 e e' h3, by rw [h4]; exact congrArg (max · _) (scaledNorm_coord S _ _ _ _).symm⟩

theorem Trial.moved_again (S : Coord n) (x : Trial n) (h η : ℝ) (J : Fin n → Fin n → ℝ) (fresh : Bool) :
    (x.again h η J fresh).moved S = (x.moved S).again h η (S.mat J) fresh := by
  unfold Trial.again
  rw [Trial.moved_Jm, Trial.moved_hm]
  rfl

theorem Fails.moved (W : S.Same A.f f' A.jac jac') (H : Fails A σ x y) :
    Fails (A.moved S f' jac') (σ.moved S) (x.moved S) (y.moved S) := by
  have ej : S.mat (A.jac σ.t σ.u) = jac' (σ.t + S.c) (S.vec σ.u) := (W.jac _ _).symm
  cases H with
  | singular h1 h2 =>
    have := Fails.singular (A := A.moved S f' jac') (σ := σ.moved S) (x := x.moved S) h1
      (fun h => h2 ((Regular.moved _ _).1 h))
    rw [show (A.moved S f' jac').jac (σ.moved S).t (σ.moved S).u = S.mat (A.jac σ.t σ.u) from W.jac _ _] at this
    exact this
  | halved h1 =>
    rw [Trial.moved_again, ej]
    exact .halved (h1.moved W)
  | slowed h1 =>
    rw [Trial.moved_again]
    exact .slowed (h1.moved W)
  | rejected h1 h2 h3 =>
    rw [Trial.moved_again, ej, ← moved_isSome σ S]
    exact .rejected (h1.moved W) (h2.moved W) h3

theorem Accepts.moved (W : S.Same A.f f' A.jac jac') (hd : A.C.d = 1) {m : ℕ} {z : Fin 3 → Fin n → ℝ} {θ η err : ℝ}
    (H : Accepts A σ x m z θ η err) :
    Accepts (A.moved S f' jac') (σ.moved S) (x.moved S) m (fun k => S.vec (z k)) θ η err := by
  refine ⟨?_, H.newton.moved W, H.small, H.error.moved W⟩
  rw [State.moved_first hd]
  exact H.tried.lift (Trial.moved S) fun _ _ h => h.moved W

theorem moved_memory (A : Problem n) (σ : State n) : (σ.moved S).memory (A.moved S f' jac') = σ.memory A := by
  unfold State.memory
  change (if A.pred then (σ.past.map (Past.moved S)).map _ else _) = _
  rw [Option.map_map]
  rfl

theorem moved_proposal (hd : A.C.d = 1) (σ : State n) (x : Trial n) (m : ℕ) (err : ℝ) :
    proposal (A.moved S f' jac') (σ.moved S) (x.moved S) m err = proposal A σ x m err := by
  have hd' : (A.moved S f' jac').C.d = 1 := by rw [moved_d, hd]
  unfold proposal
  rw [moved_memory]
  unfold Radau.Clock.proposal
  rw [hd', hd]
  rfl

theorem moved_next (W : S.Same A.f f' A.jac jac') (hd : A.C.d = 1) (σ : State n) (x : Trial n) (m : ℕ)
    (z : Fin 3 → Fin n → ℝ) (θ η err : ℝ) :
    next (A.moved S f' jac') (σ.moved S) (x.moved S) m (fun k => S.vec (z k)) θ η err = (next A σ x m z θ η err).moved S := by
  have hd' : (A.moved S f' jac').C.d = 1 := by rw [moved_d, hd]
  have et : ∀ p, (σ.t + S.c + x.h + p - (A.C.tf + S.c)) * 1 = (σ.t + x.h + p - A.C.tf) * 1 := fun p => by ring
  have ej : jac' (σ.t + S.c + x.h) (S.vec σ.u + S.vec (z 2)) = S.mat (A.jac (σ.t + x.h) (σ.u + z 2)) := by
    rw [← W.jac, S.vec_add]
    congr 1
    ring
  unfold next Radau.Clock.next
  rw [moved_proposal hd, hd', hd, Trial.moved_Jm, Trial.moved_hm]
  simp only [State.moved, Problem.moved, Trial.moved, et, ej, S.vec_add, State.mk.injEq, true_and, and_true]
  refine ⟨by ring, ?_, ?_, rfl⟩
  · split_ifs <;> first | rfl | ring
  · split_ifs <;> rfl

theorem Step.moved (W : S.Same A.f f' A.jac jac') (hd : A.C.d = 1) {σ' : State n} (H : Step A σ σ') :
    Step (A.moved S f' jac') (σ.moved S) (σ'.moved S) := by
  obtain ⟨x, m, z, θ, η, err, h1, h2, rfl⟩ := H
  exact ⟨x.moved S, m, _, θ, η, err, h1.moved W hd, h2, (moved_next W hd σ x m z θ η err).symm⟩

theorem Finish.moved (W : S.Same A.f f' A.jac jac') (hd : A.C.d = 1) {t : ℝ} {u : Fin n → ℝ} (H : Finish A σ t u) :
    Finish (A.moved S f' jac') (σ.moved S) (t + S.c) (S.vec u) := by
  obtain ⟨x, m, z, θ, η, err, h1, h2, rfl, rfl⟩ := H
  refine ⟨x.moved S, m, _, θ, η, err, h1.moved W hd, h2, ?_, S.vec_add _ _⟩
  change _ = σ.t + S.c + x.h
  ring

theorem Reach.moved (W : S.Same A.f f' A.jac jac') (hd : A.C.d = 1) {σ₀ : State n} {k : ℕ} (H : Reach A σ₀ k σ) :
    Reach (A.moved S f' jac') (σ₀.moved S) k (σ.moved S) := by
  induction H with
  | zero => exact .zero
  | succ _ h ih => exact .succ ih (h.moved W hd)

/-- There is no step after the last one. -/
theorem Reach.le_finish (hc : Function.Injective (Fin.cons 0 A.c : Fin 4 → ℝ)) {σ₀ σ₁ σ₂ : State n} (h0 : σ₀.Sound) {k k' : ℕ}
    {t : ℝ} {u : Fin n → ℝ} (H : Reach A σ₀ k σ₁) (F : Finish A σ₁ t u) (H' : Reach A σ₀ k' σ₂) : k' ≤ k := by
  by_contra hk
  have split : ∃ a b, Reach A σ₀ k a ∧ Step A a b := by
    clear F H
    induction H' with
    | zero => exact absurd (Nat.zero_le k) hk
    | succ R S ih =>
      obtain h | h := Nat.lt_succ_iff_lt_or_eq.1 (not_le.1 hk)
      · exact ih (not_le.2 h)
      · exact ⟨_, _, h ▸ R, S⟩
  obtain ⟨a, b, R, S⟩ := split
  obtain rfl := H.unique hc h0 R
  exact S.not_finish hc (H.sound h0) F

theorem moved_init (W : S.Same A.f f' A.jac jac') (t₀ h₀ : ℝ) (u₀ : Fin n → ℝ) :
    init (A.moved S f' jac') (t₀ + S.c) h₀ (S.vec u₀) = (init A t₀ h₀ u₀).moved S := by
  unfold init State.moved
  simp only [Problem.moved, W.jac, Option.map_none]

end Radau5
end
end Spec
end Cyphus
