import Verif.Proofs.RadauJac
import Verif.Arith.X
import Verif.Spec.Problem
import Verif.Spec.Jacobian
/-!
# Finite-difference derivatives (C41, C42) and the tolerances of `Radau5` (C03)
-/

namespace Cyphus
open X
set_option autoImplicit false
set_option linter.unusedSectionVars false

section any
variable {F : Type} {n : Nat} {P : Type}
  [Add F] [Sub F] [Mul F] [Div F] [Neg F] [OfScientific F] [Fl F]

theorem Vec.set_set (u : Vec n F) (i : Fin n) (d : F) : Vec.set (Vec.set u i (u i + d)) i (u i) = u := by
  funext j
  unfold Vec.set
  split
  · rename_i h; rw [h]
  · rfl

theorem jacLoop_foldl {f : Rhs F n P} (t : F) (p : P) (z d0 : Vec n F) (is : List (Fin n)) (u : Vec n F)
    (hf : ∀ b i, f p b (Spec.bump u i (Spec.fdIncrement (u i))) t = f p z (Spec.bump u i (Spec.fdIncrement (u i))) t)
    (l : JacLoop F n) (hu : l.utemp = u) :
    let r := is.foldl (jacStep f t p d0) l
    r.utemp = u ∧
    (∀ j i, r.df j i = if i ∈ is then
        (f p z (Spec.bump u i (Spec.fdIncrement (u i))) t j - d0 j) / Spec.fdIncrement (u i) else l.df j i) ∧
    r.calls = l.calls ++ is.map fun i => Call.rhs t (Spec.bump u i (Spec.fdIncrement (u i))) := by
  induction is generalizing l with
  | nil => exact ⟨hu, fun j i => by simp, by simp⟩
  | cons k is ih =>
    have e : Vec.set l.utemp k (l.utemp k + jacDel (l.utemp k)) = Spec.bump u k (Spec.fdIncrement (u k)) := by
      rw [hu]
      rfl
    have := ih (jacStep f t p d0 l k) (by
      simp only [jacStep]
      rw [Vec.set_set, hu])
    obtain ⟨h1, h2, h3⟩ := this
    refine ⟨h1, fun j i => ?_, ?_⟩
    · rw [List.foldl_cons, h2 j i]
      by_cases hi : i ∈ is
      · rw [if_pos hi, if_pos (List.mem_cons_of_mem _ hi)]
      · rw [if_neg hi]
        simp only [jacStep, List.mem_cons, hi, or_false]
        split
        · rename_i hk
          subst hk
          rw [e, hu, hf l.du1]
          rfl
        · rfl
    · rw [List.foldl_cons, h3]
      simp only [jacStep, List.map_cons, List.append_assoc, List.singleton_append]
      rw [e]

/-- As `C41_difference_quotients`, if the output is overwritten at the points where the right-hand side is called. -/
theorem jacobian_u_at {f : Rhs F n P} (m : Mat n F) (u z : Vec n F) (t : F) (p : P) (h0 : ∀ b, f p b u t = f p z u t)
    (hf : ∀ b i, f p b (Spec.bump u i (Spec.fdIncrement (u i))) t = f p z (Spec.bump u i (Spec.fdIncrement (u i))) t) :
    jacobian_u f none m u t p =
      (fun j i => (f p z (Spec.bump u i (Spec.fdIncrement (u i))) t j - f p z u t j) / Spec.fdIncrement (u i),
       Call.rhs t u :: (List.finRange n).map fun i => Call.rhs t (Spec.bump u i (Spec.fdIncrement (u i)))) := by
  obtain ⟨-, h2, h3⟩ := jacLoop_foldl t p z (f p (fun _ => 0.0) u t) (List.finRange n) u hf
    { utemp := u, du1 := fun _ => 0.0, df := m, calls := [Call.rhs t u] } rfl
  simp only [jacobian_u]
  refine Prod.ext ?_ ?_
  · funext j i
    refine (h2 j i).trans ?_
    rw [if_pos (List.mem_finRange i), h0 (fun _ => 0.0)]
  · exact h3

/-- **C41** Without a user Jacobian, entry `(j, i)` is the difference quotient of component `j` in direction `i`, and
the right-hand side is called at the current point and at `n` points which differ from it in one component. With a
user Jacobian, its value is taken and the right-hand side is not called. -/
theorem C41_difference_quotients {f : Rhs F n P} (hf : Spec.Overwrites f) (m : Mat n F) (u z : Vec n F) (t : F) (p : P) :
    jacobian_u f none m u t p =
      (fun j i => (f p z (Spec.bump u i (Spec.fdIncrement (u i))) t j - f p z u t j) / Spec.fdIncrement (u i),
       Call.rhs t u :: (List.finRange n).map fun i => Call.rhs t (Spec.bump u i (Spec.fdIncrement (u i)))) := 
  jacobian_u_at m u z t p (fun b => hf p b z u t) fun b i => hf p b z _ t

theorem C41_user_jacobian (f : Rhs F n P) (g : JacFn F n P) (m : Mat n F) (u : Vec n F) (t : F) (p : P) :
    jacobian_u f (some g) m u t p = (g p m u t, [Call.jacU t u]) := rfl

/-- **C41** If adding the increment to a component does not change its value, which happens in floating-point
arithmetic for large negative components because the increment does not scale with their size, the corresponding
column is `(x - x) / increment`, whatever the right-hand side. -/
theorem C41_absorbed_increment {f : Rhs F n P} (hf : Spec.Overwrites f) (m : Mat n F) (u z : Vec n F) (t : F) (p : P)
    (i : Fin n) (hi : u i + Spec.fdIncrement (u i) = u i) (j : Fin n) :
    (jacobian_u f none m u t p).1 j i = (f p z u t j - f p z u t j) / Spec.fdIncrement (u i) := by
  rw [C41_difference_quotients hf m u z]
  have : Spec.bump u i (Spec.fdIncrement (u i)) = u := by
    funext k
    unfold Spec.bump
    split
    · rename_i h; rw [hi, h]
    · rfl
  simp only [this]

/-- **C41** In every state of a run the Jacobian `Radau5` uses is the one (by differences or the user's) at a recorded
point. -/
theorem C41_run_radau [FlInf F] {b : Builder F n P} {s0 s : Radau.St F n P} (hb : b.build Radau.alg = .ok s0) {k : ℕ}
    (hs : Steps Radau.alg none k s0 s) :
    ∃ t u buf, (t, u) ∈ s.sol.ts.zip s.sol.us ∧ s.cache.dfdu = (jacobian_u b.dudt b.dfdu buf u t b.params).1 := by
  have : Radau.JacInv b.dudt b.dfdu b.params s := by
    refine Steps.induct (alg := Radau.alg) (I := fun _ s => Radau.JacInv b.dudt b.dfdu b.params s)
      (Radau.JacInv.build hb) ?_ hs
    rintro k s o s' hI h
    obtain ⟨⟨fuel, h⟩, -⟩ := stepReturns_none_iff.1 h
    exact hI.step h
  obtain ⟨-, -, x, hx, buf, h⟩ := this
  exact ⟨x.1, x.2, buf, hx, h⟩

end any

noncomputable section
variable {n : ℕ} {P : Type}

theorem Spec.fdIncrement_fin (x : ℝ) : ∃ d, 0 < d ∧ Spec.fdIncrement (fin x) = fin d := by
  have h := RealFl.eps_pos
  have h2 : (0:ℝ) < max x 1e-5 := lt_max_of_lt_right (by norm_num)
  refine ⟨Real.sqrt (Fl.eps * max x 1e-5), Real.sqrt_pos.2 (mul_pos h h2), ?_⟩
  unfold Spec.fdIncrement
  rw [show (1e-5 : X) = fin 1e-5 from rfl, max_fin, eps_fin, mul_fin, sqrt_fin (mul_pos h h2).le]

/-- **C41** For an affine right-hand side the finite-difference Jacobian is exact (exact arithmetic). -/
theorem C41_affine_exact {f : Rhs X n P} {p : P} {c : ℝ → Fin n → ℝ} {A : ℝ → Fin n → Fin n → ℝ}
    (ho : Spec.Overwrites f) (hf : Lifts f p fun t u i => c t i + ∑ j, A t i j * u j) (m : Mat n X) (u : Fin n → ℝ)
    (t : ℝ) : (jacobian_u f none m (fv u) (fin t) p).1 = fun i j => fin (A t i j) := by
  rw [C41_difference_quotients ho m _ (fun _ => 0.0)]
  funext i j
  obtain ⟨d, d0, hd⟩ := Spec.fdIncrement_fin (u j)
  have e : Spec.bump (fv u) j (Spec.fdIncrement (fv u j)) = fv fun k => if k = j then u j + d else u k := by
    funext k
    simp only [Spec.bump, fv, hd]
    split <;> simp
  simp only
  rw [e, hf, hf]
  simp only [fv, hd]
  rw [sub_fin, div_fin d0.ne']
  congr 1
  have : ∀ k, A t i k * (if k = j then u j + d else u k) = A t i k * u k + if k = j then A t i j * d else 0 := by
    intro k
    split
    · rename_i h; subst h; ring
    · ring
  simp only [this, Finset.sum_add_distrib, Finset.sum_ite_eq', Finset.mem_univ, if_true]
  field_simp
  ring

/-- **C41** Together: for `u' = c(t) + A u` without a user Jacobian the Jacobian used is `A` at any time, as long as
all recorded vectors are finite. -/
theorem C41_affine_run_radau {b : Builder X n P} {s0 s : Radau.St X n P} {c : ℝ → Fin n → ℝ} {A : Fin n → Fin n → ℝ}
    (ho : Spec.Overwrites b.dudt) (hf : Lifts b.dudt b.params fun t u i => c t i + ∑ j, A i j * u j)
    (hj : b.dfdu = none) (hb : b.build Radau.alg = .ok s0) {k : ℕ} (hs : Steps Radau.alg none k s0 s)
    {l : List (ℝ × (Fin n → ℝ))} (hl : Recorded s.sol l) : s.cache.dfdu = fun i j => fin (A i j) := by
  obtain ⟨t, u, buf, hm, he⟩ := C41_run_radau hb hs
  rw [hl.1, hl.2, List.zip_map', List.mem_map] at hm
  obtain ⟨x, -, hx⟩ := hm
  obtain ⟨rfl, rfl⟩ := Prod.mk.inj hx
  rw [he, hj, C41_affine_exact (A := fun _ => A) ho hf]

/-- **C42** The finite-difference time derivative is zero, whatever the right-hand side. -/
theorem C42_time_derivative_zero {f : Rhs X n P} {p : P} {F : ℝ → (Fin n → ℝ) → Fin n → ℝ} (hf : Lifts f p F)
    (buf : Vec n X) (u : Fin n → ℝ) (t : ℝ) : (jacobian_t f none buf (fv u) (fin t) p).1 = fv fun _ => 0 := by
  funext i
  have h := RealFl.eps_pos
  have h2 : (0:ℝ) < max t 1e-5 := lt_max_of_lt_right (by norm_num)
  simp only [jacobian_t, hf _ _ _, fv]
  rw [show (1e-5 : X) = fin 1e-5 from rfl, max_fin, eps_fin, mul_fin, sub_fin, div_fin (mul_pos h h2).ne']
  simp

/-- The hypotheses of C41 and C42 are met by `u' = t + 2 u`, whose time derivative is 1. -/
example : ∃ f : Rhs X 1 Unit, Spec.Overwrites f ∧ Lifts f () fun t u i => (fun _ => t) i + ∑ j : Fin 1, 2 * u j :=
  ⟨fun _ _ u t => fun i => t + fin 2 * u i, fun _ _ _ _ _ => rfl, fun buf t u => by funext i; fin_cases i; simp [fv]⟩

/-! ### C03 -/

/-- **C03** The tolerances `Radau5` works with: `0.1 reltol^(2/3)` for the relative one, and the ratio of the two is the
user's. Both are positive if the user's are. The error scale `abstol + reltol |x|` of a component is the user's scale
times a factor which does not depend on the component. -/
theorem C03_tolerances_radau {b : Builder X n P} {s0 : Radau.St X n P} {a r : ℝ} (ha : b.opts.abstol = fin a)
    (hr : b.opts.reltol = fin r) (r0 : 0 < r) (hb : b.build Radau.alg = .ok s0) :
    ∃ a' r', s0.opts.abstol = fin a' ∧ s0.opts.reltol = fin r' ∧ r' = 0.1 * r ^ ((2:ℝ) / 3) ∧ a' / r' = a / r ∧ 0 < r' ∧
      (0 < a → 0 < a') ∧ ∀ x, a' + r' * |x| = r' / r * (a + r * |x|) := by
  have hp : 0 < (0.1:ℝ) * r ^ ((2:ℝ) / 3) := by positivity
  have key : (0.1 : X) * Fl.powf b.opts.reltol (2.0 / 3.0) = fin (0.1 * r ^ ((2:ℝ) / 3)) := by
    rw [hr, show (0.1 : X) = fin 0.1 from rfl, show (2.0 : X) = fin 2.0 from rfl, show (3.0 : X) = fin 3.0 from rfl,
      div_fin (by norm_num), powf_fin r0, mul_fin]
    norm_num
  refine ⟨0.1 * r ^ ((2:ℝ) / 3) * (a / r), 0.1 * r ^ ((2:ℝ) / 3), ?_, ?_, rfl, ?_, hp, fun h => by positivity, fun x => ?_⟩
  · have e : s0.opts.abstol = 0.1 * Fl.powf b.opts.reltol (2.0 / 3.0) * (b.opts.abstol / b.opts.reltol) := by
      rw [← Res.ok.inj hb]; rfl
    rw [e, key, ha, hr, div_fin r0.ne', mul_fin]
  · have e : s0.opts.reltol = 0.1 * Fl.powf b.opts.reltol (2.0 / 3.0) := by
      rw [← Res.ok.inj hb]; rfl
    rw [e, key]
  · field_simp
  · field_simp

/-- The default tolerances meet the hypotheses: `reltol = 1e-3`, `abstol = 1e-7`. -/
example : (Radau.default_opts : Opts X).reltol = fin 1e-3 ∧ (Radau.default_opts : Opts X).abstol = fin 1e-7 :=
  ⟨rfl, rfl⟩

end
end Cyphus
