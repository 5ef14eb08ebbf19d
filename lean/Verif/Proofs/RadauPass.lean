import Verif.Proofs.RadauRun
import Verif.Proofs.RadauLaw
import Verif.Spec.RadauIIA
/-!
# The last Newton pass of a step of `Radau5`
-/

namespace Cyphus
namespace Radau
open X
set_option autoImplicit false
set_option linter.unusedSectionVars false

section any
variable {F : Type} {n : Nat} {P : Type}
  [Add F] [Sub F] [Mul F] [Div F] [Neg F] [OfScientific F] [Fl F]

/-- The error scale belongs to the current state. -/
def Scaled (s : St F n P) : Prop := s.cache.scal = fun i => s.opts.abstol + s.opts.reltol * Fl.abs (s.u i)

theorem Scaled.closed : Closed (Scaled : St F n P → Prop) where
  facs h := h
  real h e := by obtain ⟨r, -, rfl⟩ := decomp_real_ok e; exact h
  cplx h e := by obtain ⟨r, -, rfl⟩ := decomp_complex_ok e; exact h
  count h := h
  fail {s} h := by
    simp only [decFail, halveStep]
    split
    · exact h
    · split <;> exact h
  init {s} h := by
    simp only [newtonInit, prepare_newton]
    split <;> exact h
  rhs h := h
  solve h _ := h
  theta _ _ _ h := h
  slow {s} d h _ _ := by
    simp only [slowStep]
    split <;> exact h
  halve {s} h := by
    simp only [halveStep]
    split <;> exact h
  upd h := h
  err1 h := h
  err2 h := h
  decomp h := h

theorem Scaled.reject {s : St F n P} (q : F) (h : Scaled s) : Scaled (rejectStep s q) := by
  simp only [rejectStep]
  split <;> split <;> exact h

theorem Scaled.accept (s : St F n P) (q : F) : Scaled (acceptStep s q) := by
  have h1 : Scaled (acceptState (countAccept s)) := by
    simp only [acceptState]; split <;> rfl
  have h2 : ∀ s : St F n P, Scaled s → Scaled (finishNext s) := by
    intro s h; simp only [finishNext]; split <;> exact h
  have h3 : ∀ (s : St F n P) d, Scaled s → Scaled (nextStep s d) := by
    intro s d h; simp only [nextStep]; split
    · exact h2 _ h
    · split
      · exact h
      · exact h2 _ h
  simp only [acceptStep]
  split
  · exact h1
  · exact h3 _ _ h1

theorem Scaled.clamp {s : St F n P} (h : Scaled s) : Scaled (clampLast s) := by
  simp only [clampLast]
  split <;> exact h

theorem Scaled.step {fuel : Nat} {s s' : St F n P} (hs : Scaled s) (h : step fuel s = .ok s') : Scaled s' :=
  Closed.step (I := Scaled) Scaled.closed Scaled.clamp (fun h => h) (fun h _ => h.reject _)
    (fun _ _ => Scaled.accept _ _) (fun _ h => h) hs h

theorem decided_faccon (s : St F n P) : (decided s).cache.faccon = s.cache.faccon := by
  unfold decided error_estimate
  dsimp only
  split
  · rfl
  · split <;> rfl

theorem decided_newt (s : St F n P) : (decided s).cache.newt = s.cache.newt := by
  unfold decided error_estimate
  dsimp only
  split
  · rfl
  · split <;> rfl

theorem acceptStep_faccon (s : St F n P) (q : F) : (acceptStep s q).cache.faccon = s.cache.faccon := by
  have h1 : (acceptState (countAccept s)).cache.faccon = s.cache.faccon := by
    simp only [acceptState]; split <;> rfl
  have h2 : ∀ s : St F n P, (finishNext s).cache.faccon = s.cache.faccon := by
    intro s; simp only [finishNext]; split <;> rfl
  have h3 : ∀ (s : St F n P) d, (nextStep s d).cache.faccon = s.cache.faccon := by
    intro s d; simp only [nextStep]; split
    · rw [h2]
    · split
      · rfl
      · rw [h2]
  simp only [acceptStep]
  split
  · exact h1
  · rw [h3]; exact h1

/-- The derivative kept for the error estimate belongs to the current state. -/
def Derived (s : St F n P) : Prop := ∃ buf, s.cache.u0 = s.dudt s.params buf s.u s.t

theorem Derived.accept (s : St F n P) (q : F) (hs : s.sol.retcode = .Continue)
    (h : (acceptStep s q).sol.retcode = .Continue) : Derived (acceptStep s q) := by
  have h2 : ∀ s : St F n P, Derived s → Derived (finishNext s) := by
    intro s h; simp only [finishNext]; split <;> exact h
  have h3 : ∀ (s : St F n P) d, Derived s → Derived (nextStep s d) := by
    intro s d h; simp only [nextStep]; split
    · exact h2 _ h
    · split
      · exact h
      · exact h2 _ h
  simp only [acceptStep] at h ⊢
  split
  · rename_i hl
    rw [if_pos hl] at h
    simp at h
  · exact h3 _ _ ⟨_, rfl⟩

theorem Derived.step {fuel : Nat} {s s' : St F n P} (hr : Ready s) (h : step fuel s = .ok s')
    (hc : s'.sol.retcode = .Continue) : Derived s' := by
  obtain ⟨k, a, s1, s2, ha, sp, D⟩ | ⟨h, -⟩ := step_done hr h
  · have h2 : (decided s2).sol.retcode = .Continue := by
      have f := acceptStep_fields (decided s2) (stepQuot (decided s2))
      dsimp only at f
      rw [← D.eq, hc] at f
      have := f.2.2.2.2.2.2.2.2.2.2.2.2.2.2.1
      split at this
      · simp at this
      · exact this.symm
    rw [D.eq] at hc ⊢
    exact Derived.accept _ _ h2 hc
  · exact absurd hc h

/-- The state, the options and the error scale do not change in the Newton iteration. -/
theorem still_closedN (v : Vec n F) (o : Opts F) (w : Vec n F) : ClosedN (fun s : St F n P =>
    s.u = v ∧ s.opts = o ∧ s.cache.scal = w) where
  init {s} h := by
    simp only [newtonInit, prepare_newton]
    split <;> exact h
  rhs h := h
  solve h _ := h
  theta _ _ _ h := h
  slow {s} d h _ _ := by
    simp only [slowStep]
    split <;> exact h
  halve {s} h := by
    simp only [halveStep]
    split <;> exact h
  upd h := h

theorem ClosedN.and {I I' : St F n P → Prop} (h : ClosedN I) (h' : ClosedN I') : ClosedN (fun s => I s ∧ I' s) where
  init x := ⟨h.init x.1, h'.init x.2⟩
  rhs x := ⟨h.rhs x.1, h'.rhs x.2⟩
  solve x hn := ⟨h.solve x.1 hn, h'.solve x.2 hn⟩
  theta a b c x := ⟨h.theta a b c x.1, h'.theta a b c x.2⟩
  slow d x y z := ⟨h.slow d x.1 y z, h'.slow d x.2 y z⟩
  halve x := ⟨h.halve x.1, h'.halve x.2⟩
  upd x := ⟨h.upd x.1, h'.upd x.2⟩

theorem newtonCheck_dt (s : St F n P) (a b : F) (h : (newtonCheck s a b).2 = false) :
    (newtonCheck s a b).1.dt = s.dt := by
  simp only [newtonCheck] at h ⊢
  split
  · rename_i h1
    rw [if_pos h1] at h
    split
    · rename_i h2
      rw [if_pos h2] at h
      split
      · rename_i h3
        rw [if_pos h3] at h
        simp at h
      · rfl
    · rename_i h2
      rw [if_neg h2] at h
      simp at h
  · rfl

theorem acceptStep_cont (s : St F n P) (q : F) :
    (acceptStep s q).cache.cont1 = (fun i => (s.cache.z2 i - s.cache.z3 i) / C2M1) ∧
    (acceptStep s q).cache.cont2 = (fun i => ((s.cache.z1 i - s.cache.z2 i) / C1MC2 -
      (s.cache.z2 i - s.cache.z3 i) / C2M1) / C1M1) ∧
    (acceptStep s q).cache.cont3 = (fun i => ((s.cache.z1 i - s.cache.z2 i) / C1MC2 -
      (s.cache.z2 i - s.cache.z3 i) / C2M1) / C1M1 - ((s.cache.z1 i - s.cache.z2 i) / C1MC2 - s.cache.z1 i / C1) / C2) ∧
    (s.opts.dense = true → (acceptStep s q).cache.cont0 = (acceptStep s q).u) := by
  let I : St F n P → Prop := fun x => x.cache.cont1 = (fun i => (s.cache.z2 i - s.cache.z3 i) / C2M1) ∧
    x.cache.cont2 = (fun i => ((s.cache.z1 i - s.cache.z2 i) / C1MC2 -
      (s.cache.z2 i - s.cache.z3 i) / C2M1) / C1M1) ∧
    x.cache.cont3 = (fun i => ((s.cache.z1 i - s.cache.z2 i) / C1MC2 -
      (s.cache.z2 i - s.cache.z3 i) / C2M1) / C1M1 - ((s.cache.z1 i - s.cache.z2 i) / C1MC2 - s.cache.z1 i / C1) / C2) ∧
    (s.opts.dense = true → x.cache.cont0 = x.u)
  have h1 : I (acceptState (countAccept s)) := by
    simp only [acceptState]
    split
    · exact ⟨rfl, rfl, rfl, fun h => if_pos h⟩
    · exact ⟨rfl, rfl, rfl, fun h => if_pos h⟩
  have h2 : ∀ x : St F n P, I x → I (finishNext x) := by
    intro x h; simp only [finishNext]; split <;> exact h
  have h3 : ∀ (x : St F n P) d, I x → I (nextStep x d) := by
    intro x d h; simp only [nextStep]; split
    · exact h2 _ h
    · split
      · exact h
      · exact h2 _ h
  change I (acceptStep s q)
  simp only [acceptStep]
  split
  · exact h1
  · exact h3 _ _ h1

end any

noncomputable section

/-- The constants of the code as a transformation. -/
def codeTransform : Spec.Transform where
  T := !![T11, T12, T13; T21, T22, T23; T31, 1, 0]
  TI := !![TI11, TI12, TI13; TI21, TI22, TI23; TI31, TI32, TI33]
  γ := U1
  α := ALPHA
  β := BETA

/-- The nodes of the code. -/
def codeC : _root_.Fin 3 → ℝ := ![C1, C2, 1]

variable {n : ℕ} {P : Type}
variable {E : NEnv n} {fwd : Prop} {hf : ℝ} {J : _root_.Fin n → _root_.Fin n → ℝ} {s : St X n P} {t h : ℝ}

theorem lin3_fv (a b c : ℝ) (x y z : _root_.Fin n → ℝ) :
    (fun i => (fin a : X) * fv x i + fin b * fv y i + fin c * fv z i) = fv fun i => a * x i + b * y i + c * z i := rfl

/-- A Newton pass. -/
theorem Num.pass (H : Num E fwd s) (G : Good hf J (facsOf s)) (ht : s.t = fin t) (hh : s.dt = fin h) (hl : Linked s) :
    ∃ u g y Δ z, s.u = fv u ∧ (∀ s' : St X n P, (s'.cache.f1 = (solved s).cache.f1 ∧ s'.cache.f2 = (solved s).cache.f2 ∧
        s'.cache.f3 = (solved s).cache.f3 ∧ s'.cache.z1 = (solved s).cache.z1 ∧ s'.cache.z2 = (solved s).cache.z2 ∧
        s'.cache.z3 = (solved s).cache.z3) → (newtonUpdate s').cache.z1 = fv (z 0) ∧
        (newtonUpdate s').cache.z2 = fv (z 1) ∧ (newtonUpdate s').cache.z3 = fv (z 2)) ∧
      (solved s).cache.z1 = fv (Δ 0) ∧ (solved s).cache.z2 = fv (Δ 1) ∧ (solved s).cache.z3 = fv (Δ 2) ∧
      Spec.NewtonPass codeTransform codeC E.f J t h hf u g y Δ z ∧
      s.cache.f1 = fv (g 0) ∧ s.cache.f2 = fv (g 1) ∧ s.cache.f3 = fv (g 2) ∧
      s.cache.z1 = fv (y 0) ∧ s.cache.z2 = fv (y 1) ∧ s.cache.z3 = fv (y 2) := by
  obtain ⟨u, hu, -⟩ := H.u
  obtain ⟨y1, -, ey1⟩ := H.z1
  obtain ⟨y2, -, ey2⟩ := H.z2
  obtain ⟨y3, -, ey3⟩ := H.z3
  obtain ⟨g1, -, eg1⟩ := H.f1
  obtain ⟨g2, -, eg2⟩ := H.f2
  obtain ⟨g3, -, eg3⟩ := H.f3
  have hR : ∀ (buf : Vec n X) (y : _root_.Fin n → ℝ) (t : ℝ),
      s.dudt s.params buf (fun i => s.u i + fv y i) (fin t) = fv (E.f t (u + y)) := by
    intro buf y t
    rw [show (fun i => s.u i + fv y i) = fv (u + y) by rw [hu]; rfl, H.lifts]
  set F1 := E.f (t + C1 * h) (u + y1) with hF1
  set F2 := E.f (t + C2 * h) (u + y2) with hF2
  set F3 := E.f (t + h) (u + y3) with hF3
  have r1 : s.dudt s.params s.cache.z1 (fun i => s.u i + s.cache.z1 i) (s.t + C1 * s.dt) = fv F1 := by
    rw [ey1, ht, hh]; exact hR _ y1 (t + C1 * h)
  have r2 : s.dudt s.params s.cache.z2 (fun i => s.u i + s.cache.z2 i) (s.t + C2 * s.dt) = fv F2 := by
    rw [ey2, ht, hh]; exact hR _ y2 (t + C2 * h)
  have r3 : s.dudt s.params s.cache.z3 (fun i => s.u i + s.cache.z3 i) (s.t + s.dt) = fv F3 := by
    rw [ey3, ht, hh]; exact hR _ y3 (t + h)
  have w1 : (newtonRhs s).cache.z1 = fv fun i => TI11 * F1 i + TI12 * F2 i + TI13 * F3 i := by
    change (fun i => TI11 * s.dudt s.params s.cache.z1 (fun i => s.u i + s.cache.z1 i) (s.t + C1 * s.dt) i +
      TI12 * s.dudt s.params s.cache.z2 (fun i => s.u i + s.cache.z2 i) (s.t + C2 * s.dt) i +
      TI13 * s.dudt s.params s.cache.z3 (fun i => s.u i + s.cache.z3 i) (s.t + s.dt) i) = _
    rw [r1, r2, r3]; rfl
  have w2 : (newtonRhs s).cache.z2 = fv fun i => TI21 * F1 i + TI22 * F2 i + TI23 * F3 i := by
    change (fun i => TI21 * s.dudt s.params s.cache.z1 (fun i => s.u i + s.cache.z1 i) (s.t + C1 * s.dt) i +
      TI22 * s.dudt s.params s.cache.z2 (fun i => s.u i + s.cache.z2 i) (s.t + C2 * s.dt) i +
      TI23 * s.dudt s.params s.cache.z3 (fun i => s.u i + s.cache.z3 i) (s.t + s.dt) i) = _
    rw [r1, r2, r3]; rfl
  have w3 : (newtonRhs s).cache.z3 = fv fun i => TI31 * F1 i + TI32 * F2 i + TI33 * F3 i := by
    change (fun i => TI31 * s.dudt s.params s.cache.z1 (fun i => s.u i + s.cache.z1 i) (s.t + C1 * s.dt) i +
      TI32 * s.dudt s.params s.cache.z2 (fun i => s.u i + s.cache.z2 i) (s.t + C2 * s.dt) i +
      TI33 * s.dudt s.params s.cache.z3 (fun i => s.u i + s.cache.z3 i) (s.t + s.dt) i) = _
    rw [r1, r2, r3]; rfl
  obtain ⟨d1, e1, q1⟩ := G.real fun i => (TI11 * F1 i + TI12 * F2 i + TI13 * F3 i) - g1 i * (U1 / hf)
  obtain ⟨d2, d3, e2, e3, q2, q3⟩ := G.cplx
    (fun i => (TI21 * F1 i + TI22 * F2 i + TI23 * F3 i) + -(g2 i) * (ALPHA / hf) - -(g3 i) * (BETA / hf))
    (fun i => (TI31 * F1 i + TI32 * F2 i + TI33 * F3 i) + -(g3 i) * (ALPHA / hf) + -(g2 i) * (BETA / hf))
  have b1 : (fun i => (newtonRhs s).cache.z1 i - s.cache.f1 i * s.cache.fac1) =
      fv fun i => (TI11 * F1 i + TI12 * F2 i + TI13 * F3 i) - g1 i * (U1 / hf) := by
    rw [w1, eg1, show s.cache.fac1 = fin _ from G.fac1]; rfl
  have b2 : (fun i => (newtonRhs s).cache.z2 i + -(s.cache.f2 i) * s.cache.alphn - -(s.cache.f3 i) * s.cache.betan) =
      fv fun i => (TI21 * F1 i + TI22 * F2 i + TI23 * F3 i) + -(g2 i) * (ALPHA / hf) - -(g3 i) * (BETA / hf) := by
    rw [w2, eg2, eg3, show s.cache.alphn = fin _ from G.alphn, show s.cache.betan = fin _ from G.betan]; rfl
  have b3 : (fun i => (newtonRhs s).cache.z3 i + -(s.cache.f3 i) * s.cache.alphn + -(s.cache.f2 i) * s.cache.betan) =
      fv fun i => (TI31 * F1 i + TI32 * F2 i + TI33 * F3 i) + -(g3 i) * (ALPHA / hf) + -(g2 i) * (BETA / hf) := by
    rw [w3, eg2, eg3, show s.cache.alphn = fin _ from G.alphn, show s.cache.betan = fin _ from G.betan]; rfl
  have s1 : (solved s).cache.z1 = fv d1 := by
    change resV (Linalg.sol n (extM s.cache.e1)
      (extV fun i => (newtonRhs s).cache.z1 i - s.cache.f1 i * s.cache.fac1) s.cache.ip1) = _
    rw [b1]; exact e1
  have s2 : (solved s).cache.z2 = fv d2 := by
    change resV (Linalg.solc n (extM s.cache.e2r) (extM s.cache.e2i)
      (extV fun i => (newtonRhs s).cache.z2 i + -(s.cache.f2 i) * s.cache.alphn - -(s.cache.f3 i) * s.cache.betan,
       extV fun i => (newtonRhs s).cache.z3 i + -(s.cache.f3 i) * s.cache.alphn + -(s.cache.f2 i) * s.cache.betan)
      s.cache.ip2).1 = _
    rw [b2, b3]; exact e2
  have s3 : (solved s).cache.z3 = fv d3 := by
    change resV (Linalg.solc n (extM s.cache.e2r) (extM s.cache.e2i)
      (extV fun i => (newtonRhs s).cache.z2 i + -(s.cache.f2 i) * s.cache.alphn - -(s.cache.f3 i) * s.cache.betan,
       extV fun i => (newtonRhs s).cache.z3 i + -(s.cache.f3 i) * s.cache.alphn + -(s.cache.f2 i) * s.cache.betan)
      s.cache.ip2).2 = _
    rw [b2, b3]; exact e3
  refine ⟨u, ![g1, g2, g3], ![y1, y2, y3], ![d1, d2, d3],
    ![fun i => T11 * (g1 i + d1 i) + T12 * (g2 i + d2 i) + T13 * (g3 i + d3 i),
      fun i => T21 * (g1 i + d1 i) + T22 * (g2 i + d2 i) + T23 * (g3 i + d3 i),
      fun i => T31 * (g1 i + d1 i) + (g2 i + d2 i)], hu, ?_, s1, s2, s3, ⟨?_, ?_, ?_⟩, eg1, eg2, eg3, ey1, ey2, ey3⟩
  · rintro s' ⟨f1, f2, f3, z1, z2, z3⟩
    rw [s1] at z1
    rw [s2] at z2
    rw [s3] at z3
    have f1 : s'.cache.f1 = fv g1 := f1.trans eg1
    have f2 : s'.cache.f2 = fv g2 := f2.trans eg2
    have f3 : s'.cache.f3 = fv g3 := f3.trans eg3
    simp only [newtonUpdate, f1, f2, f3, z1, z2, z3]
    exact ⟨rfl, rfl, rfl⟩
  · intro k i
    have hne := G.ne
    have a1 := q1 i
    have a2 := q2 i
    have a3 := q3 i
    fin_cases k <;> simp [Fin.sum_univ_three, Spec.Transform.Lam, codeTransform, codeC, ← hF1, ← hF2, ← hF3]
    · field_simp at a1
      linarith
    · field_simp at a2
      linarith
    · field_simp at a3
      linarith
  · rcases hl with ⟨l1, l2, l3, l4, l5, l6⟩ | ⟨l1, l2, l3⟩ | ⟨l1, l2, l3⟩
    · have z0 : (fun _ => (0.0 : X) : Vec n X) = fv fun _ => 0 := by
        funext i
        rw [show (0.0 : X) = fin 0.0 from rfl]; change _ = fin 0; norm_num
      have key : ∀ {v : _root_.Fin n → ℝ} {w : Vec n X}, w = fv v → w = (fun _ => 0.0) → ∀ i, v i = 0 := by
        intro v w h1 h2 i
        rw [h1, z0] at h2
        have := congrFun h2 i
        simpa [fv] using this
      left
      intro k i
      fin_cases k <;> simp [Fin.sum_univ_three, key ey1 l1, key ey2 l2, key ey3 l3, key eg1 l4, key eg2 l5, key eg3 l6]
    · right
      have key : ∀ {v w1 w2 w3 : _root_.Fin n → ℝ} {a b c : ℝ},
          fv v = (fun i => fin a * fv w1 i + fin b * fv w2 i + fin c * fv w3 i) → ∀ i,
          v i = a * w1 i + b * w2 i + c * w3 i := by
        intro v w1 w2 w3 a b c h i
        have := congrFun h i
        change fin (v i) = fin (a * w1 i + b * w2 i + c * w3 i) at this
        exact fin_inj.1 this
      rw [eg1, ey1, ey2, ey3] at l1
      rw [eg2, ey1, ey2, ey3] at l2
      rw [eg3, ey1, ey2, ey3] at l3
      intro k i
      fin_cases k
      · simpa [Fin.sum_univ_three, codeTransform] using key (a := TI11) (b := TI12) (c := TI13) l1 i
      · simpa [Fin.sum_univ_three, codeTransform] using key (a := TI21) (b := TI22) (c := TI23) l2 i
      · simpa [Fin.sum_univ_three, codeTransform] using key (a := TI31) (b := TI32) (c := TI33) l3 i
    · left
      have key : ∀ {v w1 w2 w3 : _root_.Fin n → ℝ} {a b c : ℝ},
          fv v = (fun i => fin a * fv w1 i + fin b * fv w2 i + fin c * fv w3 i) → ∀ i,
          v i = a * w1 i + b * w2 i + c * w3 i := by
        intro v w1 w2 w3 a b c h i
        have := congrFun h i
        change fin (v i) = fin (a * w1 i + b * w2 i + c * w3 i) at this
        exact fin_inj.1 this
      have key3 : ∀ {v w1 w2 : _root_.Fin n → ℝ} {a : ℝ},
          fv v = (fun i => fin a * fv w1 i + fv w2 i) → ∀ i, v i = a * w1 i + w2 i := by
        intro v w1 w2 a h i
        have := congrFun h i
        change fin (v i) = fin (a * w1 i + w2 i) at this
        exact fin_inj.1 this
      rw [ey1, eg1, eg2, eg3] at l1
      rw [ey2, eg1, eg2, eg3] at l2
      rw [ey3, eg1, eg2] at l3
      intro k i
      fin_cases k
      · simpa [Fin.sum_univ_three, codeTransform] using key (a := T11) (b := T12) (c := T13) l1 i
      · simpa [Fin.sum_univ_three, codeTransform] using key (a := T21) (b := T22) (c := T23) l2 i
      · simpa [Fin.sum_univ_three, codeTransform] using key3 (a := T31) l3 i
  · intro k i
    fin_cases k <;> simp [Fin.sum_univ_three, codeTransform]

theorem fv_inj {v w : _root_.Fin n → ℝ} (h : fv v = fv w) : v = w := funext fun i => fin_inj.1 (congrFun h i)

/-- The vectors of the iteration are those reached by it after `newt` passes. -/
def Reached (E : NEnv n) (J : _root_.Fin n → _root_.Fin n → ℝ) (t h hf : ℝ) (u : _root_.Fin n → ℝ)
    (y₀ : _root_.Fin 3 → _root_.Fin n → ℝ) (s : St X n P) : Prop :=
  s.dt = fin h ∧ ∃ g y : _root_.Fin 3 → _root_.Fin n → ℝ, s.cache.f1 = fv (g 0) ∧ s.cache.f2 = fv (g 1) ∧
    s.cache.f3 = fv (g 2) ∧ s.cache.z1 = fv (y 0) ∧ s.cache.z2 = fv (y 1) ∧ s.cache.z3 = fv (y 2) ∧
    Spec.NewtonRun codeTransform codeC E.f J t h hf u y₀ s.cache.newt g y

/-- The increments the Newton iteration for a step of size `h` starts with: zero in the first step or if `use_ext_col` is
not set, and otherwise those of the polynomial stored with the step before. -/
def StartVals (s : St X n P) (h : ℝ) (y₀ : _root_.Fin 3 → _root_.Fin n → ℝ) : Prop :=
  if s.cache.first || !s.opts.use_ext_col then ∀ k i, y₀ k i = 0
  else ∃ hp κ1 κ2 κ3, s.dtprev = fin hp ∧ hp ≠ 0 ∧ s.cache.cont1 = fv κ1 ∧ s.cache.cont2 = fv κ2 ∧
    s.cache.cont3 = fv κ3 ∧ ∀ k i, y₀ k i = Spec.contr5 C1 C2 ![0, κ1 i, κ2 i, κ3 i] (codeC k * (h / hp))

theorem StartVals.frame {s s' : St X n P} {y₀ : _root_.Fin 3 → _root_.Fin n → ℝ} (H : StartVals s' h y₀)
    (f : Frame s s') : StartVals s h y₀ := by
  unfold StartVals at H ⊢
  rw [f.first, f.opts, f.dtprev, f.cont1, f.cont2, f.cont3] at H
  exact H

theorem Reached.start {u : _root_.Fin n → ℝ} (H : Num E fwd s) (hh : s.dt = fin h) :
    ∃ y₀, StartVals s h y₀ ∧ Reached E J t h hf u y₀ (newtonInit s) := by
  have z0 : (fun _ => (0.0 : X) : Vec n X) = fv fun _ => 0 := by
    funext i
    rw [show (0.0 : X) = fin 0.0 from rfl]; change _ = fin 0; norm_num
  unfold StartVals
  by_cases hc : (s.cache.first || !s.opts.use_ext_col) = true
  · refine ⟨fun _ _ => 0, by rw [if_pos hc]; exact fun _ _ => rfl, ?_⟩
    simp only [newtonInit, prepare_newton]
    rw [if_pos hc]
    exact ⟨hh, fun _ _ => 0, fun _ _ => 0, z0, z0, z0, z0, z0, z0, .start (by simp)⟩
  · obtain ⟨κ1, -, e1⟩ := H.cont1
    obtain ⟨κ2, -, e2⟩ := H.cont2
    obtain ⟨κ3, -, e3⟩ := H.cont3
    obtain ⟨hp, e4, n4⟩ := H.prev (by simp at hc; exact hc.1)
    obtain ⟨y₀, hy₀⟩ : ∃ y₀ : _root_.Fin 3 → _root_.Fin n → ℝ,
        y₀ = fun k i => Spec.contr5 C1 C2 ![0, κ1 i, κ2 i, κ3 i] (codeC k * (h / hp)) := ⟨_, rfl⟩
    refine ⟨y₀, ?_, ?_⟩
    · rw [if_neg hc]
      exact ⟨hp, κ1, κ2, κ3, e4, n4, e1, e2, e3, fun k i => by rw [hy₀]⟩
    have key : ∀ q : ℝ, (fun i => Fl.mulAdd (Fl.mulAdd (s.cache.cont3 i) ((fin q : X) - C1M1) (s.cache.cont2 i))
        (fin q - C2M1) (s.cache.cont1 i) * fin q) = fv fun i => Spec.contr5 C1 C2 ![0, κ1 i, κ2 i, κ3 i] q := by
      intro q
      funext i
      rw [e1, e2, e3, show (C1M1 : X) = fin C1M1 from rfl, show (C2M1 : X) = fin C2M1 from rfl]
      change fin _ = fin _
      congr 1
      simp [Spec.contr5, C1, C2, C1M1, C2M1]
      ring_nf
    have q3 : s.dt / s.dtprev = fin (h / hp) := by rw [hh, e4, div_fin n4]
    have k0 := key (C1 * (h / hp))
    have k1 := key (C2 * (h / hp))
    have k2 := key (h / hp)
    simp only [newtonInit, prepare_newton]
    rw [if_neg hc]
    refine ⟨hh, fun k i => ∑ l, codeTransform.TI k l * y₀ l i, y₀, ?_⟩
    simp only [q3]
    rw [show (C1 : X) * fin (h / hp) = fin (C1 * (h / hp)) from rfl,
      show (C2 : X) * fin (h / hp) = fin (C2 * (h / hp)) from rfl]
    have y0 : (fun i => Spec.contr5 C1 C2 ![0, κ1 i, κ2 i, κ3 i] (C1 * (h / hp))) = y₀ 0 := by
      rw [hy₀]; rfl
    have y1 : (fun i => Spec.contr5 C1 C2 ![0, κ1 i, κ2 i, κ3 i] (C2 * (h / hp))) = y₀ 1 := by
      rw [hy₀]; rfl
    have y2 : (fun i => Spec.contr5 C1 C2 ![0, κ1 i, κ2 i, κ3 i] (h / hp)) = y₀ 2 := by
      rw [hy₀]; funext i; simp [codeC]
    rw [y0] at k0
    rw [y1] at k1
    rw [y2] at k2
    have k0' := fun i => congrFun k0 i
    have k1' := fun i => congrFun k1 i
    have k2' := fun i => congrFun k2 i
    beta_reduce at k0' k1' k2'
    simp only [k0', k1', k2']
    refine ⟨?_, ?_, ?_, trivial, trivial, trivial, .start fun _ _ => rfl⟩
    · funext i
      simp only [fv_apply, Fin.sum_univ_three]
      rfl
    · funext i
      simp only [fv_apply, Fin.sum_univ_three]
      rfl
    · funext i
      simp only [fv_apply, Fin.sum_univ_three]
      rfl

theorem Reached.next {u : _root_.Fin n → ℝ} {y₀ : _root_.Fin 3 → _root_.Fin n → ℝ} {a b : X} (H : Num E fwd s)
    (G : Good hf J (facsOf s)) (ht : s.t = fin t)
    (hu : s.u = fv u) (hl : Linked s) (R : Reached E J t h hf u y₀ s) (hb : (newtonCheck (solved s) a b).2 = false) :
    Reached E J t h hf u y₀ (newtonUpdate (newtonCheck (solved s) a b).1) := by
  obtain ⟨hh, g0, y0, a1, a2, a3, a4, a5, a6, it⟩ := R
  obtain ⟨u', g, y, Δ, z, hu', hz, d1, d2, d3, pass, b1, b2, b3, b4, b5, b6⟩ := H.pass G ht hh hl
  obtain rfl : u' = u := fv_inj (hu'.symm.trans hu)
  obtain rfl : g0 = g := by
    funext k
    fin_cases k
    exacts [fv_inj (a1.symm.trans b1), fv_inj (a2.symm.trans b2), fv_inj (a3.symm.trans b3)]
  obtain rfl : y0 = y := by
    funext k
    fin_cases k
    exacts [fv_inj (a4.symm.trans b4), fv_inj (a5.symm.trans b5), fv_inj (a6.symm.trans b6)]
  have vec := newtonCheck_vec _ _ _ hb
  dsimp only at vec
  obtain ⟨v1, v2, v3, v4, v5, v6⟩ := vec
  obtain ⟨z1, z2, z3⟩ := hz _ ⟨v4, v5, v6, v1, v2, v3⟩
  have hcount : (newtonUpdate (newtonCheck (solved s) a b).1).cache.newt = s.cache.newt + 1 :=
    newtonCheck_newt (solved s) a b
  refine ⟨(newtonCheck_dt _ _ _ hb).trans hh, fun k i => g0 k i + Δ k i, z, ?_, ?_, ?_, z1, z2, z3,
    by rw [hcount]; exact .pass it pass⟩
  · simp only [newtonUpdate, v1, v4, d1]
    rw [show (solved s).cache.f1 = s.cache.f1 from rfl, a1]; rfl
  · simp only [newtonUpdate, v2, v5, d2]
    rw [show (solved s).cache.f2 = s.cache.f2 from rfl, a2]; rfl
  · simp only [newtonUpdate, v3, v6, d3]
    rw [show (solved s).cache.f3 = s.cache.f3 from rfl, a3]; rfl

/-- The scaled norm of a real vector. -/
theorem norm_fin {a r : ℝ} (ha : 0 < a) (hr : 0 ≤ r) (u : _root_.Fin n → ℝ) (i : _root_.Fin n) (x : ℝ) :
    (fin x : X) / (fin a + fin r * Fl.abs (fin (u i))) = fin (x / (a + r * |u i|)) := by
  rw [abs_fin, mul_fin, add_fin, div_fin]
  have := mul_nonneg hr (abs_nonneg (u i))
  linarith

theorem newtonNorm_fin {a r : ℝ} (ha : 0 < a) (hr : 0 ≤ r) (hn : n ≠ 0) {u : _root_.Fin n → ℝ}
    {Δ : _root_.Fin 3 → _root_.Fin n → ℝ}
    (hs : s.cache.scal = fun i => fin a + fin r * Fl.abs (fin (u i)))
    (h1 : s.cache.z1 = fv (Δ 0)) (h2 : s.cache.z2 = fv (Δ 1)) (h3 : s.cache.z3 = fv (Δ 2)) :
    newtonNorm s = fin (Spec.newtonNorm a r u Δ) := by
  have hn' : (0 : ℝ) < 3 * n := by
    have : (0 : ℝ) < n := by exact_mod_cast Nat.pos_of_ne_zero hn
    linarith
  have e : ∀ i, Fl.powi (s.cache.z1 i / s.cache.scal i) 2 + Fl.powi (s.cache.z2 i / s.cache.scal i) 2 +
      Fl.powi (s.cache.z3 i / s.cache.scal i) 2 = fin (∑ k, (Δ k i / (a + r * |u i|)) ^ 2) := by
    intro i
    rw [h1, h2, h3, hs]
    simp only [fv_apply]
    rw [norm_fin ha hr, norm_fin ha hr, norm_fin ha hr, powi_two, powi_two, powi_two, add_fin, add_fin,
      Fin.sum_univ_three]
  unfold newtonNorm
  simp only [e]
  rw [show (0.0 : X) = fin 0.0 from rfl, sumLoop_fin, sumLoop_real, ofNat_fin]
  have hz : (0.0 : ℝ) = 0 := by norm_num
  rw [hz, zero_add, Nat.cast_mul, Nat.cast_ofNat, div_fin hn'.ne', sqrt_fin]
  · rfl
  · exact div_nonneg (Finset.sum_nonneg fun i _ => Finset.sum_nonneg fun k _ => sq_nonneg _) hn'.le

theorem errNorm_fin {a r : ℝ} (ha : 0 < a) (hr : 0 ≤ r) (hn : n ≠ 0) {u e : _root_.Fin n → ℝ}
    (hs : s.cache.scal = fun i => fin a + fin r * Fl.abs (fin (u i)))
    (h1 : s.cache.cont0 = fv e) : errNorm s = fin (max (Spec.scaledNorm a r u e) 1.0e-10) := by
  have hn' : (0 : ℝ) < n := by exact_mod_cast Nat.pos_of_ne_zero hn
  have e : ∀ i, Fl.powi (s.cache.cont0 i / s.cache.scal i) 2 = fin ((e i / (a + r * |u i|)) ^ 2) := by
    intro i
    rw [h1, hs]
    simp only [fv_apply]
    rw [norm_fin ha hr, powi_two]
  unfold errNorm
  simp only [e]
  rw [show (0.0 : X) = fin 0.0 from rfl, sumLoop_fin, sumLoop_real, ofNat_fin]
  have hz : (0.0 : ℝ) = 0 := by norm_num
  rw [hz, zero_add, div_fin hn'.ne', sqrt_fin, show (1.0e-10 : X) = fin 1.0e-10 from rfl, max_fin]
  · rfl
  · exact div_nonneg (Finset.sum_nonneg fun i _ => sq_nonneg _) hn'.le

/-- The first error estimate. -/
theorem Num.errFirst_real {z : _root_.Fin 3 → _root_.Fin n → ℝ} {d : _root_.Fin n → ℝ} (G : Good hf J (facsOf s))
    (hh : s.dt = fin h) (h0 : h ≠ 0) (h1 : s.cache.z1 = fv (z 0)) (h2 : s.cache.z2 = fv (z 1))
    (h3 : s.cache.z3 = fv (z 2)) (hd : s.cache.u0 = fv d) :
    (∃ e, (errFirst s).cache.cont0 = fv e ∧ Spec.IsErrEstimate U1 hf h J d z e) ∧
      (errFirst s).cache.f2 = fv fun i => (∑ k, Spec.radauE k * z k i) / h := by
  have n3 : (3.0 * h : ℝ) ≠ 0 := mul_ne_zero (by norm_num) h0
  have e3 : (3.0 : X) * s.dt = fin (3.0 * h) := by rw [hh]; rfl
  have es : Fl.sqrt (6.0 : X) = fin (Real.sqrt 6) := by
    rw [show (6.0 : X) = fin 6.0 from rfl, sqrt_fin (by norm_num)]; norm_num
  have a1 : -(13.0 + 7.0 * Fl.sqrt 6.0) / (3.0 * s.dt) = fin (-(13.0 + 7.0 * Real.sqrt 6) / (3.0 * h)) := by
    rw [e3, es]
    exact div_fin n3
  have a2 : (-13.0 + 7.0 * Fl.sqrt 6.0) / (3.0 * s.dt) = fin ((-13.0 + 7.0 * Real.sqrt 6) / (3.0 * h)) := by
    rw [e3, es]
    exact div_fin n3
  have a3 : -1.0 / (3.0 * s.dt) = fin (-1.0 / (3.0 * h)) := by
    rw [e3]
    exact div_fin n3
  have f2 : (errFirst s).cache.f2 = fv fun i => (∑ k, Spec.radauE k * z k i) / h := by
    change (fun i => -(13.0 + 7.0 * Fl.sqrt 6.0) / (3.0 * s.dt) * s.cache.z1 i +
      (-13.0 + 7.0 * Fl.sqrt 6.0) / (3.0 * s.dt) * s.cache.z2 i + -1.0 / (3.0 * s.dt) * s.cache.z3 i) = _
    rw [a1, a2, a3, h1, h2, h3, lin3_fv]
    congr 1
    funext i
    simp only [Fin.sum_univ_three, Spec.radauE, Matrix.cons_val_zero, Matrix.cons_val_one, Matrix.cons_val]
    have : (3.0 : ℝ) = 3 := by norm_num
    rw [this] at n3 ⊢
    field_simp
    norm_num
    ring
  refine ⟨?_, f2⟩
  obtain ⟨e, e1, e2⟩ := G.real fun i => (∑ k, Spec.radauE k * z k i) / h + d i
  refine ⟨e, ?_, fun i => by rw [e2 i, add_comm]⟩
  change resV (Linalg.sol n (extM s.cache.e1) (extV fun i => (errFirst s).cache.f2 i + s.cache.u0 i) s.cache.ip1) = _
  rw [f2, hd]
  exact e1

/-- The second error estimate. -/
theorem Num.errSecond_real {z : _root_.Fin 3 → _root_.Fin n → ℝ} {u e : _root_.Fin n → ℝ} (H : Num E fwd s)
    (G : Good hf J (facsOf s)) (ht : s.t = fin t) (hu : s.u = fv u) (hc : s.cache.cont0 = fv e)
    (hf2 : s.cache.f2 = fv fun i => (∑ k, Spec.radauE k * z k i) / h) :
    ∃ e', (errSecond s).cache.cont0 = fv e' ∧ Spec.IsErrEstimate U1 hf h J (E.f t (u + e)) z e' := by
  obtain ⟨e', e1, e2⟩ := G.real fun i => E.f t (u + e) i + (∑ k, Spec.radauE k * z k i) / h
  refine ⟨e', ?_, e2⟩
  change resV (Linalg.sol n (extM s.cache.e1) (extV fun i =>
    s.dudt s.params s.cache.f1 (fun i => s.u i + s.cache.cont0 i) s.t i + s.cache.f2 i) s.cache.ip1) = _
  rw [hf2, ht, show (fun i => s.u i + s.cache.cont0 i) = fv (u + e) by rw [hu, hc]; rfl, H.lifts]
  exact e1

/-- What is known about an accepted step. -/
structure StepR (E : NEnv n) (C : Clock) (fwd : Prop) (t h hf : ℝ) (u : _root_.Fin n → ℝ)
    (J : _root_.Fin n → _root_.Fin n → ℝ) (g y Δ z : _root_.Fin 3 → _root_.Fin n → ℝ) (s s' : St X n P) : Prop where
  time : s.t = fin t
  state : s.u = fv u
  idle : IdleN E C fwd (t + h) s'
  next : s'.u = fv (u + z 2)
  ne : h ≠ 0
  good : Good hf J (facsOf s')
  iter : Spec.NewtonIter codeTransform codeC E.f J t h hf u g y
  pass : Spec.NewtonPass codeTransform codeC E.f J t h hf u g y Δ z
  dtprev : s'.dtprev = fin h
  test : ∀ a r, s.opts.abstol = fin a → s.opts.reltol = fin r → 0 < a → 0 ≤ r →
    Fl.le (s'.cache.faccon * fin (Spec.newtonNorm a r u Δ)) s.opts.fnewt = true
  err : ∀ a r, s.opts.abstol = fin a → s.opts.reltol = fin r → 0 < a → 0 ≤ r →
    ∃ e, Spec.IsErrEstimate U1 hf h J (E.f t u) z e ∧ (Spec.scaledNorm a r u e < 1 ∨
      ∃ e', Spec.IsErrEstimate U1 hf h J (E.f t (u + e)) z e' ∧ Spec.scaledNorm a r u e' < 1)
  cont1 : s'.cache.cont1 = fv fun i => (z 1 i - z 2 i) / C2M1
  cont2 : s'.cache.cont2 = fv fun i => ((z 0 i - z 1 i) / C1MC2 - (z 1 i - z 2 i) / C2M1) / C1M1
  cont3 : s'.cache.cont3 = fv fun i => ((z 0 i - z 1 i) / C1MC2 - (z 1 i - z 2 i) / C2M1) / C1M1 -
    ((z 0 i - z 1 i) / C1MC2 - z 0 i / C1) / C2
  dense : s.opts.dense = true → s'.cache.cont0 = s'.u
  fresh : (s.stats.decompositions < s'.stats.decompositions ∧ hf = h ∧
      ∃ x ∈ s.sol.ts.zip s.sol.us, ∃ buf, fmat J = (jacobian_u s.dudt s.dfdu buf x.2 x.1 s.params).1) ∨
    (s'.stats.decompositions = s.stats.decompositions ∧ s.cache.decompose = false ∧ facsOf s' = facsOf s)
  keep : s'.cache.decompose = false → s'.dt = fin h ∧ ∃ q : X, Fl.ge q s.opts.quot1 = true ∧ Fl.le q s.opts.quot2 = true
  push : s'.sol.ts = s.sol.ts ++ [fin (t + h)] ∧ s'.sol.us = s.sol.us ++ [fv (u + z 2)]
  count : ∃ y₀ j, StartVals s h y₀ ∧ Spec.NewtonRun codeTransform codeC E.f J t h hf u y₀ j g y ∧
    s'.cache.newt = j + 1 ∧ j + 1 ≤ s.opts.max_newt_iter
  later : s'.cache.first = false

/-- If the decomposition is going to be skipped the step size is unchanged, and the proposal was between `quot1` and `quot2` times
the step. -/
theorem acceptStep_skip {F : Type} [Add F] [Sub F] [Mul F] [Div F] [Neg F] [OfScientific F] [Fl F] {s : St F n P} (q : F)
    (h : s.cache.decompose = true) (h' : (acceptStep s q).cache.decompose = false) :
    (acceptStep s q).dt = s.dt ∧ ∃ q : F, Fl.ge q s.opts.quot1 = true ∧ Fl.le q s.opts.quot2 = true := by
  have hf : ∀ s : St F n P, (finishNext s).cache.decompose = s.cache.decompose := by
    intro s; simp only [finishNext]; split <;> rfl
  have hd : (acceptState (countAccept s)).cache.decompose = true := by
    rw [← h]
    simp only [acceptState]
    by_cases hm : (countAccept s).opts.modern_pred = true <;> simp [hm] <;> rfl
  have ht : (acceptState (countAccept s)).dt = s.dt := by
    simp only [acceptState]
    by_cases hm : (countAccept s).opts.modern_pred = true <;> simp [hm] <;> rfl
  have ho : (acceptState (countAccept s)).opts = s.opts := by
    simp only [acceptState]
    by_cases hm : (countAccept s).opts.modern_pred = true <;> simp [hm] <;> rfl
  revert h'
  unfold acceptStep
  dsimp only
  split
  · intro h'
    exact absurd (hd.symm.trans h') (by decide)
  · rw [← ht, ← ho]
    generalize acceptState (countAccept s) = s1 at *
    generalize s.dt / _ = q'
    unfold nextStep
    dsimp only
    split
    · intro h'
      rw [hf] at h'
      exact absurd (hd.symm.trans h') (by decide)
    · split
      · rename_i hk
        simp only [Bool.and_eq_true] at hk
        exact fun _ => ⟨rfl, _, hk.1.2, hk.2⟩
      · intro h'
        rw [hf] at h'
        exact absurd (hd.symm.trans h') (by decide)

theorem acceptStep_keep {F : Type} [Add F] [Sub F] [Mul F] [Div F] [Neg F] [OfScientific F] [Fl F] {s : St F n P} (q : F)
    (h : s.cache.decompose = true) (h' : (acceptStep s q).cache.decompose = false) : (acceptStep s q).dt = s.dt :=
  (acceptStep_skip q h h').1

/-- All about one call of `step`. -/
theorem IdleN.accepted {C : Clock} {s' : St X n P} {fuel : ℕ} (hn : n ≠ 0) (H : IdleN E C fwd t s) (hr : Ready s)
    (hsc : Scaled s) (hde : Derived s) (hj : JacInv s.dudt s.dfdu s.params s) (hst : Radau.step fuel s = .ok s') :
    (∃ h hf u J g y Δ z, StepR E C fwd t h hf u J g y Δ z s s') ∨
    (s'.sol.retcode ≠ .Continue ∧ s'.sol.retcode ≠ .Success ∧ s'.sol.ts = s.sol.ts ∧ s'.sol.us = s.sol.us) := by
  obtain ⟨k, a, s1, s2, h, hf, J, ha, D, S⟩ | hfail := H.step hr hst
  swap
  · exact .inr hfail
  left
  obtain ⟨fuel1, hdec⟩ := D.dec
  have hL := L_clampLast hr.reject
  have fr1 : Frame s s1 := (Frame.clampLast s).trans ((ha.spec hL).frame.trans (Frame.decPhase hdec))
  have fr2 : Frame s s2 := fr1.trans ((Frame.tick _).trans (Frame.newton D.newton))
  obtain ⟨u, hu1, -⟩ := S.num.u
  obtain ⟨y₀, hy₀, hst⟩ := Reached.start (J := J) (t := t) (hf := hf) (u := u) (s := tick s1) { S.num with } S.clk.step
  obtain ⟨sp, dyn, ⟨⟨⟨cp, np⟩, gp⟩, up, op, scp⟩, lp, ⟨-, g0, y0, g1, g2, g3, y1, y2, y3, iter⟩, hnt, hb, e2, hle⟩ :=
    newton_last_with (K := Reached E J t h hf u y₀)
      ((NumN.closed S.jok).and (still_closedN s1.u s1.opts s1.cache.scal)) (s := tick s1)
      (fun ⟨⟨⟨⟨_, c⟩, n⟩, g⟩, e, _⟩ l k b => k.next n g c.time (e.trans hu1) l b)
      ⟨⟨⟨Clk.tick ⟨h, S.clk⟩, { S.num with }⟩, S.good⟩, rfl, rfl, rfl⟩
      (fun _ _ => hst) D.newton
  obtain ⟨h', cp⟩ := cp
  have hdt2 : s2.dt = fin h := by
    have := newton_flags D.newton
    simp at this
    rw [this.2.2]; exact S.clk.step
  have hdtp : sp.dt = fin h := by
    have := newtonCheck_dt _ _ _ hb
    rw [← hdt2, e2]
    exact this.symm
  obtain ⟨u', g, y, Δ, z, hu, hz, d1, d2, d3, pass, b1, b2, b3, b4, b5, b6⟩ := np.pass gp cp.time hdtp lp
  obtain rfl : u' = u := fv_inj (hu.symm.trans (up.trans hu1))
  obtain rfl : g0 = g := by
    funext k
    fin_cases k
    exacts [fv_inj (g1.symm.trans b1), fv_inj (g2.symm.trans b2), fv_inj (g3.symm.trans b3)]
  obtain rfl : y0 = y := by
    funext k
    fin_cases k
    exacts [fv_inj (y1.symm.trans b4), fv_inj (y2.symm.trans b5), fv_inj (y3.symm.trans b6)]
  rename' u' => u, g0 => g, y0 => y
  clear g1 g2 g3 y1 y2 y3
  have vec := newtonCheck_vec _ _ _ hb
  dsimp only at vec
  obtain ⟨v1, v2, v3, v4, v5, v6⟩ := vec
  obtain ⟨z1, z2, z3⟩ := hz _ ⟨v4, v5, v6, v1, v2, v3⟩
  rw [← e2] at z1 z2 z3
  have hus : s.u = fv u := by rw [← fr1.u, ← up, hu]
  have ht : s.t = fin t := by rw [← fr1.t, S.clk.time]
  have dz := decided_facs s2
  have ac := acceptStep_cont (decided s2) (stepQuot (decided s2))
  have af := acceptStep_fields (decided s2) (stepQuot (decided s2))
  dsimp only at af
  rw [← D.eq, dz.2.2.2.1, dz.2.2.2.2.1, dz.2.2.2.2.2, z1, z2, z3] at ac
  rw [← D.eq, dz.2.2.2.2.2, z3, (Frame.decided s2).u, fr2.u, hus] at af
  have c1 : (C2M1 : ℝ) ≠ 0 := by unfold C2M1; norm_num
  have c2 : (C1MC2 : ℝ) ≠ 0 := by unfold C1MC2; norm_num
  have c3 : (C1 : ℝ) ≠ 0 := by unfold C1; norm_num
  have c4 : (C2 : ℝ) ≠ 0 := by unfold C2; norm_num
  have c5 : (C1M1 : ℝ) ≠ 0 := by unfold C1M1; norm_num
  have x1 : (C2M1 : X) = fin C2M1 := rfl
  have x2 : (C1MC2 : X) = fin C1MC2 := rfl
  have x3 : (C1 : X) = fin C1 := rfl
  have x4 : (C2 : X) = fin C2 := rfl
  have x5 : (C1M1 : X) = fin C1M1 := rfl
  simp only [x1, x2, x3, x4, x5, fv_apply, sub_fin, div_fin c1, div_fin c2, div_fin c3, div_fin c4, div_fin c5] at ac
  obtain ⟨-, -, -, -, af5, af6, -, -, af9, -, -, -, af13, af14, -, -, -, -, -, -, -, af22, -⟩ := af
  obtain ⟨buf, hu0⟩ := hde
  have hd0 : s.cache.u0 = fv (E.f t u) := by rw [hu0, hus, ht, H.num.lifts]
  obtain ⟨⟨c2', n2⟩, g2⟩ := (NumN.closed S.jok).newton ⟨⟨Clk.tick ⟨h, S.clk⟩, { S.num with }⟩, S.good⟩ D.newton
  have hs : ∀ {a r : ℝ}, s.opts.abstol = fin a → s.opts.reltol = fin r →
      s.cache.scal = fun i => fin a + fin r * Fl.abs (fin (u i)) := by
    intro a r h1 h2
    rw [show s.cache.scal = _ from hsc, h1, h2, hus]
    rfl
  refine ⟨h, hf, u, J, g, y, Δ, z, ht, hus, S.idle, af5, S.ne, by rw [S.facs]; exact S.good, iter.iter, pass, S.dtprev, ?_, ?_,
    ac.1, ac.2.1, ac.2.2.1, fun hd => ac.2.2.2 (by rw [(Frame.decided s2).opts, fr2.opts]; exact hd), ?_, ?_, ?_, ⟨y₀, sp.cache.newt, ?_, iter, ?_, ?_⟩, ?_⟩
  · intro a r ha hr a0 r0
    have e : newtonNorm (solved sp) = fin (Spec.newtonNorm a r u Δ) := by
      refine newtonNorm_fin a0 r0 hn ?_ d1 d2 d3
      change sp.cache.scal = _
      rw [scp, fr1.scal]; exact hs ha hr
    rw [e] at hle
    rw [show s'.cache.faccon = s2.cache.faccon by rw [D.eq, acceptStep_faccon, decided_faccon], ← fr2.opts]
    exact hle
  · intro a r ha hr a0 r0
    have hs2 : s2.cache.scal = fun i => fin a + fin r * Fl.abs (fin (u i)) := by rw [fr2.scal]; exact hs ha hr
    have ht2 : s2.t = fin t := by rw [fr2.t, ht]
    have hu2 : s2.u = fv u := by rw [fr2.u, hus]
    obtain ⟨⟨e, e1, e2'⟩, ef⟩ := Num.errFirst_real g2 hdt2 S.ne z1 z2 z3 (by rw [fr2.u0]; exact hd0)
    refine ⟨e, e2', ?_⟩
    have er1 : (errFirst s2).cache.err = fin (max (Spec.scaledNorm a r u e) 1.0e-10) := by
      change errNorm (errFirst s2) = _
      exact errNorm_fin a0 r0 hn hs2 e1
    have hlt : ∀ x : ℝ, Fl.lt (fin (max x 1.0e-10)) (1.0 : X) = true → x < 1 := by
      intro x hx
      rw [show (1.0 : X) = fin 1.0 from rfl, lt_fin] at hx
      have := of_decide_eq_true hx
      have h1 := lt_of_le_of_lt (le_max_left _ _) this
      norm_num at h1
      exact h1
    have hD := D.err
    unfold Radau.decided error_estimate at hD
    dsimp only at hD
    split at hD
    · left
      rw [er1] at hD
      exact hlt _ hD
    · rename_i hne
      split at hD
      · right
        have n3 := n2.err1 hdt2 S.ne g2
        obtain ⟨e', e3, e4⟩ := n3.errSecond_real (h := h) (z := z) (hf := hf) (J := J) g2 ht2 hu2 e1 ef
        refine ⟨e', e4, ?_⟩
        have er2 : (errSecond (errFirst s2)).cache.err = fin (max (Spec.scaledNorm a r u e') 1.0e-10) := by
          change errNorm (errSecond (errFirst s2)) = _
          exact errNorm_fin a0 r0 hn hs2 e3
        rw [er2] at hD
        exact hlt _ hD
      · exact absurd hD hne
  · obtain ⟨f1, f2, f3⟩ | ⟨f1, f2, f3⟩ := S.fresh
    · left
      refine ⟨f1, f2, ?_⟩
      have hclamp : JacInv s.dudt s.dfdu s.params (clampLast s) := by
        simp only [clampLast]
        split <;> exact hj
      have j1 := Closed.attsL (JacInv.closed (f := s.dudt) (g := s.dfdu) (p := s.params)) (fun h => h)
        (fun h _ => h.reject _) hL hclamp ha
      obtain ⟨-, -, x, hx, buf, hb⟩ := (JacInv.closed (f := s.dudt) (g := s.dfdu) (p := s.params)).decPhase j1 hdec
      rw [fr1.ts, fr1.us] at hx
      exact ⟨x, hx, buf, by rw [← f3, hb]⟩
    · exact .inr ⟨f1, f2, by rw [S.facs, f3]⟩
  · intro hd
    rw [D.eq] at hd ⊢
    obtain ⟨k1, k2, k3, k4⟩ := acceptStep_skip _ rfl hd
    rw [(Frame.decided s2).opts, fr2.opts] at k3 k4
    refine ⟨?_, k2, k3, k4⟩
    rw [k1, ← hdt2]
    change (error_estimate s2).dt = s2.dt
    simp only [error_estimate]
    split
    · rfl
    · split <;> rfl
  · rw [af13, af14, (Frame.decided s2).ts, (Frame.decided s2).us, fr2.ts, fr2.us]
    obtain ⟨_, hi⟩ := S.idle.idle
    rw [← hi.time, af6]
    exact ⟨rfl, rfl⟩
  · exact (hy₀.frame (Frame.tick s1)).frame fr1
  · have h1 : s'.cache.newt = s2.cache.newt := by rw [D.eq, (acceptStep_memory _ _).1, decided_newt]
    rw [h1, e2]
    exact newtonCheck_newt (solved sp) _ _
  · rw [← fr1.opts, ← op]
    exact hnt
  · exact af22

end
end Radau
end Cyphus
