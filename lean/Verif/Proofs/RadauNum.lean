import Verif.Proofs.RadauFac
import Verif.Proofs.RadauX
import Verif.Proofs.RadauLin
/-!
# The values `Radau5` computes, in exact arithmetic
-/

namespace Cyphus
namespace Radau
open X Linalg
set_option autoImplicit false
set_option linter.unusedSectionVars false
noncomputable section
variable {n : ℕ} {P : Type}

/-- A real problem: right-hand side, Jacobian, a subspace and the initial state. -/
structure NEnv (n : ℕ) where
  f : ℝ → (_root_.Fin n → ℝ) → _root_.Fin n → ℝ
  jac : ℝ → (_root_.Fin n → ℝ) → _root_.Fin n → _root_.Fin n → ℝ
  V : Submodule ℝ (_root_.Fin n → ℝ)
  u0 : _root_.Fin n → ℝ

/-- `J` preserves the subspace and no first column of `lam - J` vanishes. -/
structure JOk (E : NEnv n) (fwd : Prop) (J : _root_.Fin n → _root_.Fin n → ℝ) : Prop where
  map : ∀ v ∈ E.V, mv J v ∈ E.V
  col : ∀ lam, lam ≠ 0 → (fwd → 0 < lam) → ColOk J lam

/-- The right-hand side and the Jacobian respect `u0 + V`. -/
structure NEnv.Ok (E : NEnv n) (fwd : Prop) : Prop where
  f_mem : ∀ t u, u - E.u0 ∈ E.V → E.f t u ∈ E.V
  jac_ok : ∀ t u, u - E.u0 ∈ E.V → JOk E fwd (E.jac t u)

/-- A vector of real numbers in `V`. -/
def InV (V : Submodule ℝ (_root_.Fin n → ℝ)) (w : Vec n X) : Prop := ∃ v ∈ V, w = fv v

/-- All vectors are finite and in the subspace. -/
structure Num (E : NEnv n) (fwd : Prop) (s : St X n P) : Prop where
  ok : E.Ok fwd
  lifts : Lifts s.dudt s.params E.f
  jacs : ∀ buf u t, (jacobian_u s.dudt s.dfdu buf (fv u) (fin t) s.params).1 = fmat (E.jac t u)
  u : ∃ v, s.u = fv v ∧ v - E.u0 ∈ E.V
  u0 : InV E.V s.cache.u0
  cont1 : InV E.V s.cache.cont1
  cont2 : InV E.V s.cache.cont2
  cont3 : InV E.V s.cache.cont3
  z1 : InV E.V s.cache.z1
  z2 : InV E.V s.cache.z2
  z3 : InV E.V s.cache.z3
  f1 : InV E.V s.cache.f1
  f2 : InV E.V s.cache.f2
  f3 : InV E.V s.cache.f3
  dfdu : ∃ J, s.cache.dfdu = fmat J ∧ JOk E fwd J
  prev : s.cache.first = false → ∃ x, s.dtprev = fin x ∧ x ≠ 0

/-- The factors solve the systems for the step `hf` and the Jacobian `J`. -/
structure Good (hf : ℝ) (J : _root_.Fin n → _root_.Fin n → ℝ) (d : Facs X n) : Prop where
  ne : hf ≠ 0
  fac1 : d.fac1 = fin (U1 / hf)
  alphn : d.alphn = fin (ALPHA / hf)
  betan : d.betan = fin (BETA / hf)
  real : ∀ b : _root_.Fin n → ℝ, ∃ x : _root_.Fin n → ℝ,
    (resV (sol n (extM d.e1) (extV (fv b)) d.ip1) : Vec n X) = fv x ∧
      ∀ i, U1 / hf * x i - ∑ j, J i j * x j = b i
  cplx : ∀ b c : _root_.Fin n → ℝ, ∃ x y : _root_.Fin n → ℝ,
    (resV (solc n (extM d.e2r) (extM d.e2i) (extV (fv b), extV (fv c)) d.ip2).1 : Vec n X) = fv x ∧
    (resV (solc n (extM d.e2r) (extM d.e2i) (extV (fv b), extV (fv c)) d.ip2).2 : Vec n X) = fv y ∧
    (∀ i, ALPHA / hf * x i - BETA / hf * y i - ∑ j, J i j * x j = b i) ∧
      ∀ i, ALPHA / hf * y i + BETA / hf * x i - ∑ j, J i j * y j = c i

theorem Factored.good {h : ℝ} {J : _root_.Fin n → _root_.Fin n → ℝ} {d : Facs X n} (H : Factored (fin h) (fmat J) d)
    (h0 : h ≠ 0) (hc : ColOk J (U1 / h)) : Good h J d := by
  have e1 : (U1 : X) / fin h = fin (U1 / h) := by rw [show (U1 : X) = fin U1 from rfl, div_fin h0]
  have e2 : (ALPHA : X) / fin h = fin (ALPHA / h) := by rw [show (ALPHA : X) = fin ALPHA from rfl, div_fin h0]
  have e3 : (BETA : X) / fin h = fin (BETA / h) := by rw [show (BETA : X) = fin BETA from rfl, div_fin h0]
  have hb : (BETA / h : ℝ) ≠ 0 := by
    apply div_ne_zero _ h0
    unfold BETA; norm_num
  obtain ⟨h1, h2, h3, ⟨ip, r, hr, er, ei⟩, ⟨ip', r', hr', er1, er2, ei'⟩⟩ := H
  rw [e1] at h1 hr
  rw [e2] at h2 hr'
  rw [e3] at h3 hr'
  refine ⟨h0, h1, h2, h3, fun b => ?_, fun b c => ?_⟩
  · rw [er, ei]; exact real_solver hr hc b
  · rw [er1, er2, ei']; exact complex_solver hb hr' b c

theorem U1_pos : (0 : ℝ) < U1 := by unfold U1; norm_num

/-! ### Vectors in the subspace -/

section
variable {V : Submodule ℝ (_root_.Fin n → ℝ)} {w w' : Vec n X} (c : ℝ)

theorem InV.zero : InV V (fun _ => 0.0) := ⟨0, V.zero_mem, by
  funext i; rw [show (0.0 : X) = fin 0.0 from rfl]; change _ = fin 0; norm_num⟩

theorem InV.add (h : InV V w) (h' : InV V w') : InV V (fun i => w i + w' i) := by
  obtain ⟨v, hv, rfl⟩ := h; obtain ⟨v', hv', rfl⟩ := h'
  exact ⟨v + v', V.add_mem hv hv', rfl⟩

theorem InV.sub (h : InV V w) (h' : InV V w') : InV V (fun i => w i - w' i) := by
  obtain ⟨v, hv, rfl⟩ := h; obtain ⟨v', hv', rfl⟩ := h'
  exact ⟨v - v', V.sub_mem hv hv', rfl⟩

theorem InV.neg (h : InV V w) : InV V (fun i => -w i) := by
  obtain ⟨v, hv, rfl⟩ := h
  exact ⟨-v, V.neg_mem hv, rfl⟩

theorem InV.smul (h : InV V w) : InV V (fun i => fin c * w i) := by
  obtain ⟨v, hv, rfl⟩ := h
  exact ⟨c • v, V.smul_mem c hv, rfl⟩

theorem InV.muls (h : InV V w) : InV V (fun i => w i * fin c) := by
  obtain ⟨v, hv, rfl⟩ := h
  refine ⟨c • v, V.smul_mem c hv, ?_⟩
  funext i
  change fin (v i * c) = fin (c * v i)
  rw [mul_comm]

theorem InV.divs (h : InV V w) {c : ℝ} (hc : c ≠ 0) : InV V (fun i => w i / fin c) := by
  obtain ⟨v, hv, rfl⟩ := h
  refine ⟨c⁻¹ • v, V.smul_mem _ hv, ?_⟩
  funext i
  rw [fv_apply, div_fin hc]
  change fin (v i / c) = fin (c⁻¹ * v i)
  rw [div_eq_inv_mul]

theorem InV.lin3 {w1 w2 w3 : Vec n X} (h1 : InV V w1) (h2 : InV V w2) (h3 : InV V w3) {c1 c2 c3 : X} {a1 a2 a3 : ℝ}
    (e1 : c1 = fin a1) (e2 : c2 = fin a2) (e3 : c3 = fin a3) :
    InV V (fun i => c1 * w1 i + c2 * w2 i + c3 * w3 i) := by
  subst e1 e2 e3
  exact ((h1.smul _).add (h2.smul _)).add (h3.smul _)

end

section
variable {E : NEnv n} {fwd : Prop} {hf : ℝ} {J : _root_.Fin n → _root_.Fin n → ℝ} {d : Facs X n}

theorem Good.mem_real (G : Good hf J d) (hJ : JOk E fwd J) {w : Vec n X} (hw : InV E.V w) :
    InV E.V (resV (sol n (extM d.e1) (extV w) d.ip1)) := by
  obtain ⟨b, hb, rfl⟩ := hw
  obtain ⟨x, e, hx⟩ := G.real b
  exact ⟨x, Radau.mem_real hJ.map (fun b => ⟨_, (G.real b).choose_spec.2⟩) hx hb, e⟩

theorem Good.mem_cplx (G : Good hf J d) (hJ : JOk E fwd J) {w w' : Vec n X} (hw : InV E.V w) (hw' : InV E.V w') :
    InV E.V (resV (solc n (extM d.e2r) (extM d.e2i) (extV w, extV w') d.ip2).1) ∧
    InV E.V (resV (solc n (extM d.e2r) (extM d.e2i) (extV w, extV w') d.ip2).2) := by
  obtain ⟨b, hb, rfl⟩ := hw
  obtain ⟨c, hc, rfl⟩ := hw'
  obtain ⟨x, y, e1, e2, hx, hy⟩ := G.cplx b c
  have := Radau.mem_complex hJ.map (fun b c => by
    obtain ⟨x, y, -, -, h⟩ := G.cplx b c
    exact ⟨x, y, h⟩) hx hy hb hc
  exact ⟨⟨x, this.1, e1⟩, ⟨y, this.2, e2⟩⟩

variable {s : St X n P} {t h : ℝ}

theorem Num.rhs_mem (H : Num E fwd s) (buf : Vec n X) {w : Vec n X} (hw : InV E.V w) (t : ℝ) :
    InV E.V (s.dudt s.params buf (fun i => s.u i + w i) (fin t)) := by
  obtain ⟨v, hv, hm⟩ := H.u
  obtain ⟨x, hx, rfl⟩ := hw
  have : (fun i => s.u i + fv x i) = fv (v + x) := by rw [hv]; rfl
  rw [this, H.lifts]
  refine ⟨_, H.ok.f_mem _ _ ?_, rfl⟩
  rw [show v + x - E.u0 = v - E.u0 + x by abel]
  exact E.V.add_mem hm hx

theorem Num.refresh (H : Num E fwd s) (ht : s.t = fin t) : Num E fwd (refreshJac s) := by
  obtain ⟨v, hv, hm⟩ := H.u
  refine { H with dfdu := ⟨E.jac t v, ?_, H.ok.jac_ok t v hm⟩ }
  change (jacobian_u s.dudt s.dfdu s.cache.dfdu s.u s.t s.params).1 = _
  rw [hv, ht, H.jacs]

theorem Num.init (H : Num E fwd s) (hh : s.dt = fin h) : Num E fwd (newtonInit s) := by
  simp only [newtonInit, prepare_newton]
  split
  · exact { H with z1 := .zero, z2 := .zero, z3 := .zero, f1 := .zero, f2 := .zero, f3 := .zero }
  · rename_i hc
    obtain ⟨x, hx, h0⟩ := H.prev (by
      cases hf : s.cache.first with
      | false => rfl
      | true => simp [hf] at hc)
    have key : ∀ q : ℝ, InV E.V (fun i => Fl.mulAdd (Fl.mulAdd (s.cache.cont3 i) (fin q - C1M1) (s.cache.cont2 i))
        (fin q - C2M1) (s.cache.cont1 i) * fin q) := by
      intro q
      have e := ((((H.cont3.muls (q - C1M1)).add H.cont2).muls (q - C2M1)).add H.cont1).muls q
      have a1 : fin q - C1M1 = fin (q - C1M1) := rfl
      have a2 : fin q - C2M1 = fin (q - C2M1) := rfl
      rw [a1, a2]
      obtain ⟨c1, -, e1⟩ := H.cont1
      obtain ⟨c2, -, e2⟩ := H.cont2
      obtain ⟨c3, -, e3⟩ := H.cont3
      rw [e1, e2, e3] at e ⊢
      exact e
    have ed : s.dt / s.dtprev = fin (h / x) := by rw [hh, hx, div_fin h0]
    have k1 : InV E.V (fun i => Fl.mulAdd (Fl.mulAdd (s.cache.cont3 i) (C1 * (s.dt / s.dtprev) - C1M1) (s.cache.cont2 i))
        (C1 * (s.dt / s.dtprev) - C2M1) (s.cache.cont1 i) * (C1 * (s.dt / s.dtprev))) := by
      rw [ed]; exact key (C1 * (h / x))
    have k2 : InV E.V (fun i => Fl.mulAdd (Fl.mulAdd (s.cache.cont3 i) (C2 * (s.dt / s.dtprev) - C1M1) (s.cache.cont2 i))
        (C2 * (s.dt / s.dtprev) - C2M1) (s.cache.cont1 i) * (C2 * (s.dt / s.dtprev))) := by
      rw [ed]; exact key (C2 * (h / x))
    have k3 : InV E.V (fun i => Fl.mulAdd (Fl.mulAdd (s.cache.cont3 i) ((s.dt / s.dtprev) - C1M1) (s.cache.cont2 i))
        ((s.dt / s.dtprev) - C2M1) (s.cache.cont1 i) * (s.dt / s.dtprev)) := by
      rw [ed]; exact key (h / x)
    exact { H with
      z1 := k1, z2 := k2, z3 := k3
      f1 := k1.lin3 k2 k3 rfl rfl rfl
      f2 := k1.lin3 k2 k3 rfl rfl rfl
      f3 := k1.lin3 k2 k3 rfl rfl rfl }

theorem Num.rhs (H : Num E fwd s) (ht : s.t = fin t) (hh : s.dt = fin h) : Num E fwd (newtonRhs s) := by
  have k1 : InV E.V (s.dudt s.params s.cache.z1 (fun i => s.u i + s.cache.z1 i) (s.t + C1 * s.dt)) := by
    rw [ht, hh]; exact H.rhs_mem _ H.z1 (t + C1 * h)
  have k2 : InV E.V (s.dudt s.params s.cache.z2 (fun i => s.u i + s.cache.z2 i) (s.t + C2 * s.dt)) := by
    rw [ht, hh]; exact H.rhs_mem _ H.z2 (t + C2 * h)
  have k3 : InV E.V (s.dudt s.params s.cache.z3 (fun i => s.u i + s.cache.z3 i) (s.t + s.dt)) := by
    rw [ht, hh]; exact H.rhs_mem _ H.z3 (t + h)
  exact { H with
    z1 := k1.lin3 k2 k3 rfl rfl rfl
    z2 := k1.lin3 k2 k3 rfl rfl rfl
    z3 := k1.lin3 k2 k3 rfl rfl rfl }

theorem Num.solve (H : Num E fwd s) (G : Good hf J (facsOf s)) (hJ : JOk E fwd J) : Num E fwd (newtonSolve s) := by
  have k1 : InV E.V (fun i => s.cache.z1 i - s.cache.f1 i * s.cache.fac1) := by
    rw [show s.cache.fac1 = fin _ from G.fac1]; exact H.z1.sub (H.f1.muls _)
  have k2 : InV E.V (fun i => s.cache.z2 i + -(s.cache.f2 i) * s.cache.alphn - -(s.cache.f3 i) * s.cache.betan) := by
    rw [show s.cache.alphn = fin _ from G.alphn, show s.cache.betan = fin _ from G.betan]
    exact (H.z2.add (H.f2.neg.muls _)).sub (H.f3.neg.muls _)
  have k3 : InV E.V (fun i => s.cache.z3 i + -(s.cache.f3 i) * s.cache.alphn + -(s.cache.f2 i) * s.cache.betan) := by
    rw [show s.cache.alphn = fin _ from G.alphn, show s.cache.betan = fin _ from G.betan]
    exact (H.z3.add (H.f3.neg.muls _)).add (H.f2.neg.muls _)
  have k := G.mem_cplx hJ k2 k3
  exact { H with z1 := G.mem_real hJ k1, z2 := k.1, z3 := k.2 }

theorem Num.upd (H : Num E fwd s) : Num E fwd (newtonUpdate s) := by
  have k1 := H.f1.add H.z1
  have k2 := H.f2.add H.z2
  have k3 := H.f3.add H.z3
  exact { H with
    f1 := k1, f2 := k2, f3 := k3
    z1 := k1.lin3 k2 k3 rfl rfl rfl
    z2 := k1.lin3 k2 k3 rfl rfl rfl
    z3 := (k1.smul T31).add k2 }

theorem Num.halve (H : Num E fwd s) (ht : s.t = fin t) : Num E fwd (halveStep s) := by
  simp only [halveStep]
  split
  · exact Num.refresh (s := { s with dt := s.dt * 0.5, cache := { s.cache with dtfac := 0.5, reject := true, last := false } })
      { H with } ht
  · exact { H with }

theorem Num.slow (H : Num E fwd s) (ht : s.t = fin t) (d : X) : Num E fwd (slowStep s d) := by
  simp only [slowStep]
  split
  · refine Num.refresh (t := t) ?_ ht
    exact { H with }
  · exact { H with }

theorem Num.fail (H : Num E fwd s) (ht : s.t = fin t) : Num E fwd (decFail s) := by
  simp only [decFail]
  split
  · exact { H with }
  · refine Num.halve (t := t) ?_ ht
    exact { H with }

theorem Num.err1 (H : Num E fwd s) (hh : s.dt = fin h) (h0 : h ≠ 0) (G : Good hf J (facsOf s)) :
    Num E fwd (errFirst s) := by
  have h3 : (3.0 * h : ℝ) ≠ 0 := mul_ne_zero (by norm_num) h0
  have e3 : (3.0 : X) * s.dt = fin (3.0 * h) := by rw [hh]; rfl
  have es : Fl.sqrt (6.0 : X) = fin (Real.sqrt 6.0) := by
    rw [show (6.0 : X) = fin 6.0 from rfl, sqrt_fin (by norm_num)]
  have a1 : -(13.0 + 7.0 * Fl.sqrt 6.0) / (3.0 * s.dt) = fin (-(13.0 + 7.0 * Real.sqrt 6.0) / (3.0 * h)) := by
    rw [e3, es]
    exact div_fin h3
  have a2 : (-13.0 + 7.0 * Fl.sqrt 6.0) / (3.0 * s.dt) = fin ((-13.0 + 7.0 * Real.sqrt 6.0) / (3.0 * h)) := by
    rw [e3, es]
    exact div_fin h3
  have a3 : -1.0 / (3.0 * s.dt) = fin (-1.0 / (3.0 * h)) := by
    rw [e3]
    exact div_fin h3
  exact { H with f2 := H.z1.lin3 H.z2 H.z3 a1 a2 a3 }

/-- The error estimate leads into the subspace. -/
theorem Num.err_mem (H : Num E fwd s) (hh : s.dt = fin h) (h0 : h ≠ 0) (G : Good hf J (facsOf s)) (hJ : JOk E fwd J) :
    InV E.V (errFirst s).cache.cont0 :=
  G.mem_real hJ ((H.err1 hh h0 G).f2.add H.u0)

theorem Num.err2 (H : Num E fwd s) (ht : s.t = fin t) (hc : InV E.V s.cache.cont0) : Num E fwd (errSecond s) := by
  have k : InV E.V (s.dudt s.params s.cache.f1 (fun i => s.u i + s.cache.cont0 i) s.t) := by
    rw [ht]; exact H.rhs_mem _ hc t
  exact { H with f1 := k }

theorem Num.decided (H : Num E fwd s) (ht : s.t = fin t) (hh : s.dt = fin h) (h0 : h ≠ 0)
    (G : Good hf J (facsOf s)) (hJ : JOk E fwd J) : Num E fwd (decided s) := by
  have h1 := H.err1 hh h0 G
  have h2 := H.err_mem hh h0 G hJ
  have h3 := h1.err2 (t := t) ht h2
  unfold Radau.decided error_estimate
  dsimp only
  split
  · exact { h1 with }
  · split
    · exact { h3 with }
    · exact { h1 with }

theorem Num.reject (H : Num E fwd s) (ht : s.t = fin t) (q : X) : Num E fwd (rejectStep s q) := by
  simp only [rejectStep]
  split <;> split
  · refine Num.refresh (t := t) ?_ ht
    exact { H with }
  · exact { H with }
  · refine Num.refresh (t := t) ?_ ht
    exact { H with }
  · exact { H with }

theorem Num.acceptState (H : Num E fwd s) (hh : s.dt = fin h) (h0 : h ≠ 0) : Num E fwd (acceptState (countAccept s)) := by
  have n1 : (C2M1 : ℝ) ≠ 0 := by unfold C2M1; norm_num
  have n2 : (C1MC2 : ℝ) ≠ 0 := by unfold C1MC2; norm_num
  have n3 : (C1 : ℝ) ≠ 0 := by unfold C1; norm_num
  have n4 : (C2 : ℝ) ≠ 0 := by unfold C2; norm_num
  have n5 : (C1M1 : ℝ) ≠ 0 := by unfold C1M1; norm_num
  obtain ⟨v, hv, hm⟩ := H.u
  obtain ⟨x, hx, ex⟩ := H.z3
  have ku : ∃ w, (fun i => s.u i + s.cache.z3 i) = fv w ∧ w - E.u0 ∈ E.V := by
    refine ⟨v + x, by rw [hv, ex]; rfl, ?_⟩
    rw [show v + x - E.u0 = v - E.u0 + x by abel]
    exact E.V.add_mem hm hx
  have k1 : InV E.V (fun i => (s.cache.z2 i - s.cache.z3 i) / C2M1) := (H.z2.sub H.z3).divs n1
  have ka : InV E.V (fun i => (s.cache.z1 i - s.cache.z2 i) / C1MC2) := (H.z1.sub H.z2).divs n2
  have kb : InV E.V (fun i => ((s.cache.z1 i - s.cache.z2 i) / C1MC2 - s.cache.z1 i / C1) / C2) :=
    (ka.sub (H.z1.divs n3)).divs n4
  have k2 : InV E.V (fun i => ((s.cache.z1 i - s.cache.z2 i) / C1MC2 - (s.cache.z2 i - s.cache.z3 i) / C2M1) / C1M1) :=
    (ka.sub k1).divs n5
  have k3 := k2.sub kb
  unfold Radau.acceptState
  dsimp only
  split
  · exact { H with u := ku, cont1 := k1, cont2 := k2, cont3 := k3, prev := fun _ => ⟨h, hh, h0⟩ }
  · exact { H with u := ku, cont1 := k1, cont2 := k2, cont3 := k3, prev := fun _ => ⟨h, hh, h0⟩ }

theorem Num.newDeriv (H : Num E fwd s) (ht : s.t = fin t) : Num E fwd (newDeriv s) := by
  obtain ⟨v, hv, hm⟩ := H.u
  refine { H with u0 := ⟨E.f t v, H.ok.f_mem _ _ hm, ?_⟩ }
  change s.dudt s.params s.cache.u0 s.u s.t = _
  rw [hv, ht, H.lifts]

theorem Num.finish (H : Num E fwd s) (ht : s.t = fin t) : Num E fwd (finishNext s) := by
  simp only [finishNext]
  split
  · refine Num.refresh (t := t) ?_ ht
    exact { H with }
  · exact { H with }

theorem Num.next (H : Num E fwd s) (ht : s.t = fin t) (d : X) : Num E fwd (nextStep s d) := by
  simp only [nextStep]
  split
  · refine Num.finish (t := t) ?_ ht
    exact { H with }
  · split
    · exact { H with }
    · refine Num.finish (t := t) ?_ ht
      exact { H with }

theorem Num.accept (H : Num E fwd s) (ht : s.t = fin t) (hh : s.dt = fin h) (h0 : h ≠ 0) (q : X) :
    Num E fwd (acceptStep s q) := by
  have h1 := H.acceptState hh h0
  have e : (Radau.acceptState (countAccept s)).t = fin (t + h) := by
    have := acceptState_fields (countAccept s)
    dsimp only at this
    rw [this.2.2.2.2.2.1]
    change s.t + s.dt = _
    rw [ht, hh]; rfl
  simp only [acceptStep]
  split
  · exact { h1 with }
  · exact (h1.newDeriv e).next e _

theorem Num.clamp (H : Num E fwd s) : Num E fwd (clampLast s) := by
  unfold clampLast
  split
  · exact { H with }
  · exact H

/-! ### The attempts of a step -/

variable {C : Clock}

theorem NumD.closed : ClosedD (fun s : St X n P => (∃ h, Clk C fwd s t h) ∧ Num E fwd s) where
  facs := fun ⟨h1, h2⟩ => ⟨Clk.closed.facs h1, { h2 with }⟩
  real := fun ⟨h1, h2⟩ e => ⟨Clk.closed.real h1 e, by
    obtain ⟨r, -, rfl⟩ := decomp_real_ok e; exact { h2 with }⟩
  cplx := fun ⟨h1, h2⟩ e => ⟨Clk.closed.cplx h1 e, by
    obtain ⟨r, -, rfl⟩ := decomp_complex_ok e; exact { h2 with }⟩
  count := fun ⟨h1, h2⟩ => ⟨Clk.closed.count h1, { h2 with }⟩
  fail := fun ⟨h1, h2⟩ => ⟨Clk.closed.fail h1, h2.fail h1.choose_spec.time⟩

theorem NumN.closed (hJ : JOk E fwd J) : ClosedN (fun s : St X n P =>
    ((∃ h, Clk C fwd s t h) ∧ Num E fwd s) ∧ Good hf J (facsOf s)) where
  init := fun {s} ⟨⟨h1, h2⟩, h3⟩ => ⟨⟨Clk.closed.init h1, h2.init h1.choose_spec.step⟩, by
    simp only [newtonInit, prepare_newton]; split <;> exact h3⟩
  rhs := fun ⟨⟨h1, h2⟩, h3⟩ => ⟨⟨Clk.closed.rhs h1, h2.rhs h1.choose_spec.time h1.choose_spec.step⟩, h3⟩
  solve := fun ⟨⟨h1, h2⟩, h3⟩ hn => ⟨⟨Clk.closed.solve h1 hn, h2.solve h3 hJ⟩, h3⟩
  theta := fun a b c ⟨⟨h1, h2⟩, h3⟩ => ⟨⟨Clk.closed.theta a b c h1, { h2 with }⟩, h3⟩
  slow := fun {s} d ⟨⟨h1, h2⟩, h3⟩ hn hd => ⟨⟨Clk.closed.slow d h1 hn hd, h2.slow h1.choose_spec.time d⟩, by
    simp only [slowStep]; split <;> exact h3⟩
  halve := fun {s} ⟨⟨h1, h2⟩, h3⟩ => ⟨⟨Clk.closed.halve h1, h2.halve h1.choose_spec.time⟩, by
    simp only [halveStep]; split <;> exact h3⟩
  upd := fun ⟨⟨h1, h2⟩, h3⟩ => ⟨⟨Clk.closed.upd h1, h2.upd⟩, h3⟩

/-- The invariant at the head of the loop. -/
structure HeadN (E : NEnv n) (C : Clock) (fwd : Prop) (t : ℝ) (s : St X n P) : Prop where
  clk : ∃ h, Clk C fwd s t h
  num : Num E fwd s
  good : s.cache.decompose = false → ∃ hf J, JOk E fwd J ∧ Good hf J (facsOf s)

/-- After the decompositions the factors are good. -/
theorem HeadN.dec {s1 : St X n P} {fuel : ℕ} (H : HeadN E C fwd t s) (h1 : decPhase fuel s = .ok (s1, true))
    (hs : tooSmall s1 = false) : (∃ h, h ≠ 0 ∧ Clk C fwd s1 t h) ∧ Num E fwd s1 ∧
      ∃ hf J, JOk E fwd J ∧ Good hf J (facsOf s1) ∧
        (s.cache.decompose = true → s1.dt = fin hf ∧ s1.cache.dfdu = fmat J) := by
  obtain ⟨⟨h, hc⟩, hn⟩ := NumD.closed.decPhase ⟨H.clk, H.num⟩ h1
  have h0 := hc.step_ne hs
  refine ⟨⟨h, h0, hc⟩, hn, ?_⟩
  obtain ⟨d1, d2, d3, d4⟩ | ⟨d1, rfl⟩ := decPhase_factored h1
  · obtain ⟨J, eJ, hJ⟩ := hn.dfdu
    rw [eJ, hc.step] at d3
    refine ⟨h, J, hJ, d3.good h0 (hJ.col _ (div_ne_zero U1_pos.ne' h0) fun hf => ?_), fun _ => ⟨hc.step, eJ⟩⟩
    exact div_pos U1_pos (lt_of_le_of_ne (hc.pos hf) (Ne.symm h0))
  · obtain ⟨hf, J, hJ, hG⟩ := H.good d1
    exact ⟨hf, J, hJ, hG, fun hd => by rw [d1] at hd; simp at hd⟩

theorem HeadN.att {s' : St X n P} (H : HeadN E C fwd t s) (hL : L s) (h : Att s s') : HeadN E C fwd t s' := by
  cases h with
  | diverged h1 _ h3 h2 =>
    obtain ⟨⟨h, h0, hc⟩, hn, hf, J, hJ, hG, -⟩ := H.dec h1 h3
    have := (NumN.closed hJ).newton ⟨⟨Clk.tick ⟨h, hc⟩, { hn with }⟩, hG⟩ h2
    exact ⟨this.1.1, this.1.2, fun _ => ⟨hf, J, hJ, this.2⟩⟩
  | @again s1 s2 fuel h1 _ h3 h2 h5 =>
    obtain ⟨⟨h, h0, hc⟩, hn, hf, J, hJ, hG, -⟩ := H.dec h1 h3
    obtain ⟨⟨c2, n2⟩, g2⟩ := (NumN.closed hJ).newton ⟨⟨Clk.tick ⟨h, hc⟩, { hn with }⟩, hG⟩ h2
    have ht2 : s2.t = fin t := c2.choose_spec.time
    have hdt : s2.dt = fin h := by
      have := newton_flags h2
      simp at this
      rw [this.2.2]; exact hc.step
    have n3 := n2.decided ht2 hdt h0 g2 hJ
    obtain ⟨h3', c3⟩ := Clk.closed.decided c2
    have g3 : Good hf J (facsOf (Radau.decided s2)) := by rw [(decided_facs s2).1]; exact g2
    have hL1 := L.closed.decPhase hL h1
    have hL2 := L.closed.decided (L.closed.newton (show L (tick _) from hL1) h2)
    rw [control_eq] at h5 ⊢
    split at h5
    · rw [acceptStep_reject_of_L _ hL2] at h5; simp at h5
    · rename_i hlt
      rw [if_neg hlt]
      exact ⟨c3.reject (Bool.eq_false_iff.2 hlt), n3.reject c3.time _, fun _ => ⟨hf, J, hJ, by
        rw [(rejectStep_facs _ _).1]; exact g3⟩⟩

theorem HeadN.atts {k : ℕ} {s' : St X n P} (H : HeadN E C fwd t s) (hL : L s) (h : Atts k s s') : HeadN E C fwd t s' := by
  induction h with
  | zero => exact H
  | succ h1 _ ih => exact ih (H.att hL h1) (h1.spec hL).L

/-- The invariant between two calls of `step`. -/
structure IdleN (E : NEnv n) (C : Clock) (fwd : Prop) (t : ℝ) (s : St X n P) : Prop where
  idle : ∃ h, Idle C fwd s t h
  num : Num E fwd s
  good : s.cache.decompose = false → ∃ hf J, JOk E fwd J ∧ Good hf J (facsOf s)

theorem IdleN.head (H : IdleN E C fwd t s) (hc : s.sol.retcode = .Continue) : HeadN E C fwd t (clampLast s) where
  clk := H.idle.choose_spec.clamp hc
  num := H.num.clamp
  good := by
    unfold clampLast
    split <;> exact H.good

/-- The numbers of an accepted step. -/
structure StepN (E : NEnv n) (C : Clock) (fwd : Prop) (t : ℝ) (s s1 s2 s' : St X n P) (h hf : ℝ)
    (J : _root_.Fin n → _root_.Fin n → ℝ) : Prop where
  idle : IdleN E C fwd (t + h) s'
  ne : h ≠ 0
  clk : Clk C fwd s1 t h
  num : Num E fwd s1
  jok : JOk E fwd J
  good : Good hf J (facsOf s1)
  dtprev : s'.dtprev = fin h
  fresh : (s.stats.decompositions < s'.stats.decompositions ∧ hf = h ∧ s1.cache.dfdu = fmat J) ∨
    (s'.stats.decompositions = s.stats.decompositions ∧ s.cache.decompose = false ∧ facsOf s1 = facsOf s)
  facs : facsOf s' = facsOf s1

theorem IdleN.step {s' : St X n P} {fuel : ℕ} (H : IdleN E C fwd t s) (hr : Ready s) (h : step fuel s = .ok s') :
    (∃ k a s1 s2 h hf J, Atts k (clampLast s) a ∧ Done a s1 s2 s' ∧ StepN E C fwd t s s1 s2 s' h hf J) ∨
    (s'.sol.retcode ≠ .Continue ∧ s'.sol.retcode ≠ .Success ∧ s'.sol.ts = s.sol.ts ∧ s'.sol.us = s.sol.us) := by
  obtain ⟨k, a, s1, s2, ha, sp, D⟩ | h := step_done hr h
  · left
    have Ha := (H.head hr.retcode).atts (L_clampLast hr.reject) ha
    have hd := (Head.start s).atts (L_clampLast hr.reject) ha
    obtain ⟨f1, f2, f3, f4⟩ := D.facs hd
    obtain ⟨fuel, h1⟩ := D.dec
    obtain ⟨⟨h, h0, hc⟩, hn, hf, J, hJ, hG, hfr⟩ := Ha.dec h1 D.small
    obtain ⟨⟨c2, n2⟩, g2⟩ := (NumN.closed hJ).newton ⟨⟨Clk.tick ⟨h, hc⟩, { hn with }⟩, hG⟩ D.newton
    have hdt : s2.dt = fin h := by
      have := newton_flags D.newton
      simp at this
      rw [this.2.2]; exact hc.step
    have ht2 : s2.t = fin t := c2.choose_spec.time
    have n3 := n2.decided ht2 hdt h0 g2 hJ
    obtain ⟨h3, c3⟩ := Clk.closed.decided c2
    have e3 : h3 = h := by
      have := c3.step
      rw [decided_dt, hdt, fin_inj] at this
      exact this.symm
    subst e3
    have hsm : tooSmall (Radau.decided s2) = false := by
      have e1 : (Radau.decided s2).t = s1.t := by rw [(Frame.decided s2).t, ht2, hc.time]
      have e2 : (Radau.decided s2).dt = s1.dt := by rw [decided_dt, hdt, hc.step]
      unfold tooSmall
      rw [e1, e2]
      exact D.small
    obtain ⟨h', hi, -⟩ := c3.accept hsm
    have n4 := n3.accept c3.time c3.step h0 (stepQuot (Radau.decided s2))
    rw [← D.eq] at hi n4
    refine ⟨k, a, s1, s2, h3, hf, J, ha, D, ⟨⟨h', hi⟩, n4, fun _ => ⟨hf, J, hJ, by rw [f1]; exact hG⟩⟩, h0, hc, hn, hJ,
      hG, by rw [f3, hc.step], ?_, f1⟩
    obtain ⟨d1, d2, d3, d4⟩ | ⟨d1, d2⟩ := decPhase_factored h1
    · left
      have := hfr d1
      rw [hc.step, fin_inj] at this
      refine ⟨?_, this.1.symm, this.2⟩
      obtain f4 | f4 := f4
      · exact f4.1
      · have l1 := hd.le
        have e1 : s'.stats.decompositions = s1.stats.decompositions := by
          have hk := (facs_closedN _ _ _).newton (s := tick s1) ⟨rfl, rfl, rfl⟩ D.newton
          have f := acceptStep_fields (Radau.decided s2) (stepQuot (Radau.decided s2))
          dsimp only at f
          rw [← D.eq] at f
          rw [f.2.2.2.2.2.2.2.2.2.2.2.2.2.2.2.2.2.2.2.1, (decided_facs s2).2.1, hk.2.1]; rfl
        omega
    · right
      obtain ⟨o1, o2, o3⟩ := hd.old d1
      have e1 : s'.stats.decompositions = s1.stats.decompositions := by
        have hk := (facs_closedN _ _ _).newton (s := tick s1) ⟨rfl, rfl, rfl⟩ D.newton
        have f := acceptStep_fields (Radau.decided s2) (stepQuot (Radau.decided s2))
        dsimp only at f
        rw [← D.eq] at f
        rw [f.2.2.2.2.2.2.2.2.2.2.2.2.2.2.2.2.2.2.2.1, (decided_facs s2).2.1, hk.2.1]; rfl
      exact ⟨by rw [e1, d2, o2], o3, by rw [d2, o1]⟩
  · exact .inr h

end
end
end Radau
end Cyphus
